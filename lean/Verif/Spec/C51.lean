import Verif.Model.Sched

/-! C51: a partition is scheduled for refresh when it reaches its watermark, once. -/
namespace Verif.C51
open Sched

/-- A request for the partition waits or was taken, or it is being refreshed. -/
def Busy (s : St) : Prop := 0 < s.waiting ∨ 0 < s.running ∨ 0 < s.moving ∨ s.job.isSome

/-- Bytes of the table that takes writes, with the pages a batch takes. -/
def size (c : Conf) (s : St) (news : List Bool) : Nat :=
  ((match s.part with | some p => p.act | none => 0) + news.count true) * c.page

/-- A batch that leaves more bytes than the watermark, when nothing is scheduled,
schedules one refresh. -/
def Queues (c : Conf) (s : St) : Prop :=
  ∀ news, news ≠ [] → ¬ Busy s → 0 < c.wm → c.wm < size c s news →
    (step c s (.write news)).waiting = s.waiting + 1

/-- A batch schedules nothing if something is scheduled or under way, or the size
does not exceed the watermark. -/
def Once (c : Conf) (s : St) : Prop :=
  ∀ news, Busy s ∨ c.wm = 0 ∨ size c s news ≤ c.wm → (step c s (.write news)).waiting = s.waiting

/-- Whether this starts a refresh of the partition: nothing holds its service
lock, it exists, and a request or move for it was taken. -/
def Starts (s : St) : Job → Bool
  | .request => s.job.isNone && s.part.isSome && decide (0 < s.running)
  | .move => s.job.isNone && s.part.isSome && decide (0 < s.moving)
  | .command => s.job.isNone && s.part.isSome

/-- The pages taken by batches since the last refresh began, or since the
partition was dropped or the process started. -/
def since (c : Conf) : Nat → St → List Ev → Nat
  | n, _, [] => n
  | n, s, e :: es =>
    let n := match e with
      | .write news | .refused news => n + news.count true
      | .start j => if Starts s j then 0 else n
      | .drop => if s.job.isSome then n else 0
      | .restart => 0
      | _ => n
    since c n (step c s e) es

/-- What the watermark is compared with is what was written since the last
refresh began: what a refresh saves no longer counts. -/
def Counts (c : Conf) (es : List Ev) : Prop :=
  size c (run c init es) [] = since c 0 init es * c.page

/-- The property: in every history. -/
def Full : Prop := ∀ c es, 0 < c.page → Queues c (run c init es) ∧ Once c (run c init es) ∧ Counts c es

/-- Whether a refresh of any kind has failed since the partition was last dropped
or the process started. -/
def everFailed (c : Conf) : Bool → St → List Ev → Bool
  | b, _, [] => b
  | b, s, e :: es =>
    let b := match e with
      | .fail => if s.job.isSome then true else b
      | .drop => if s.job.isSome then b else false
      | .restart => false
      | _ => b
    everFailed c b (step c s e) es

/-- Whether a background refresh has failed since the partition was last
refreshed, dropped or the process started. -/
def failed (c : Conf) : Bool → St → List Ev → Bool
  | b, _, [] => b
  | b, s, e :: es =>
    let b := match e with
      | .fail => if s.job = some .request ∨ s.job = some .move then true else b
      | .giveUp | .moveEnds => true
      | .apply => if s.job.isSome then false else b
      | .drop => if s.job.isSome then b else false
      | .restart => false
      | _ => b
    failed c b (step c s e) es

/-- No command refreshes the partition, and it is not dropped while something is
scheduled or under way. -/
def Undisturbed (c : Conf) : St → List Ev → Prop
  | _, [] => True
  | s, e :: es => e ≠ .start .command ∧ (e = .drop → ¬ Busy s) ∧ Undisturbed c (step c s e) es

end Verif.C51
