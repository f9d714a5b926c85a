import Verif.Model.Batch
import Verif.Spec.Table

/-! C09: batch writes are atomic in memory. -/
namespace Verif.C09
open Spec Batch

/-- The events of each partition, ascending. -/
abbrev Contents := Nat → List Event

/-- What a scan of each partition returns. -/
def Shows (mc : MemCmp) (t : Tables) (c : Contents) : Prop := ∀ p, Memtable.scan mc (t p) none = .ok (c p)

/-- Writes events one after the other. -/
def written (route : Nat → Nat) (c : Contents) : List Event → Contents
  | [] => c
  | e :: es => written route (fun p => if p = route e.id then put e (c p) else c p) es

/-- All keys of a batch have at most 255 bytes and nothing fails. -/
def Clean (b : Batch) : Prop :=
  (∀ a ∈ b.args, a.event.key.length ≤ 255 ∧ a.fail = .none) ∧ b.logFails = false

/-- A batch that cannot succeed. -/
def Doomed (b : Batch) : Prop :=
  (∃ a ∈ b.args, a.event.key.length > 255 ∨ a.fail = .logAdd ∨ a.fail = .lock ∨ a.fail = .event) ∨ b.logFails = true

/-- The contents after a batch of which it is known whether it failed. -/
def after (route : Nat → Nat) (c : Contents) (b : Batch) (failed : Bool) : Contents :=
  if failed then c else written route c (b.args.map (·.event))

/-- A batch has all or no effect. -/
def Atomic (mc : MemCmp) (route : Nat → Nat) (t : Tables) (c : Contents) (b : Batch) : Prop :=
  ∃ t' failed, write mc route t b = .ok (t', failed) ∧ Shows mc t' (after route c b failed) ∧
    (Clean b → failed = false) ∧ (Doomed b → failed = true)

/-- Every batch of a history is atomic. -/
def AllAtomic (mc : MemCmp) (route : Nat → Nat) : Tables → Contents → List Batch → Prop
  | _, _, [] => True
  | t, c, b :: bs =>
    Atomic mc route t c b ∧
    ∀ t' failed, write mc route t b = .ok (t', failed) → AllAtomic mc route t' (after route c b failed) bs

/-- The property, for tables that are empty at first.  The ids of a partition
span less than 2^31 (C01). -/
def Full (sp ss : Nat) : Prop :=
  ∀ mc route (base : Nat → Nat) bs,
    (∀ b ∈ bs, ∀ a ∈ b.args, base (route a.event.id) ≤ a.event.id ∧
      a.event.id < base (route a.event.id) + 2147483648) →
    AllAtomic mc route (fun _ => Memtable.init sp ss) (fun _ => []) bs

/-- The largest size of each table, if all events of a batch are written. -/
def peaks (route : Nat → Nat) (c : Contents) (pk : Nat → Nat) : List Event → Nat → Nat
  | [] => pk
  | e :: es =>
    let c' : Contents := fun p => if p = route e.id then put e (c p) else c p
    peaks route c' (fun p => max (pk p) (c' p).length) es

/-- Each event is the largest of its partition (or replaces the largest), or the
partition never exceeds one page. -/
def Tail (sp : Nat) (route : Nat → Nat) (small : Nat → Nat) (c : Contents) : List Event → Prop
  | [] => True
  | e :: es =>
    ((∀ a ∈ c (route e.id), evCmp a e ≤ 0) ∨ small (route e.id) ≤ sp) ∧
    Tail sp route small (fun p => if p = route e.id then put e (c p) else c p) es

/-- No allocation of an event fails; no page allocation fails in an empty
partition. -/
def NoNull (route : Nat → Nat) (c : Contents) : List Arg → Prop
  | [] => True
  | a :: as =>
    a.fail ≠ .event ∧ (a.fail = .page → c (route a.event.id) ≠ []) ∧
    NoNull route (fun p => if p = route a.event.id then put a.event (c p) else c p) as

/-- The batch does not fail before its first log record. -/
def Starts (b : Batch) : Prop :=
  match b.args with
  | [] => b.logFails = false
  | a :: _ => a.event.key.length ≤ 255 ∧ a.fail ≠ .logAdd

/-- The limits of the partial theorem, for a history. -/
def Allowed (sp : Nat) (route : Nat → Nat) : Contents → (Nat → Nat) → List Batch → Prop
  | _, _, [] => True
  | c, pk, b :: bs =>
    let es := b.args.map (·.event)
    let pk' := peaks route c pk es
    Starts b ∧ NoNull route c b.args ∧ Tail sp route pk' c es ∧
    ∀ failed, Allowed sp route (after route c b failed) pk' bs

end Verif.C09
