import Verif.Spec.C59
import Verif.Model.Blocking

/-! C81: a writer waits for memory only while there is none, and not for ever. -/
namespace Verif.C81
open C59 (Call)

/-- What a thread may ask of the library. -/
inductive Job
  /-- a batch: for each event the partition, and how many pages it needs -/
  | write (es : List (Nat × Nat))
  | refresh (p : Nat)
  /-- DROP PARTITION -/
  | drop (p : Nat)
  /-- DEBUG MEMORY_GC -/
  | gc
  | other (c : Call)
deriving Repr, DecidableEq

def Job.deeds : Job → List Deed
  | .write es => Deed.engine_write es
  | .refresh p => Deed.refresh_run p
  | .drop p => Deed.engine_drop p
  | .gc => Deed.debug_memory_gc
  | .other c => Deed.other c.acts

/-- The job as C59 sees it. -/
def Job.calls : Job → List Call
  | .write es => [.write (es.map (·.1))]
  | .refresh p => [.refresh p]
  | .drop p => [.file p, .change]
  | .gc => []
  | .other c => [c]

/-- The pages of a batch, and those a job asks for. -/
def pages (es : List (Nat × Nat)) : Nat := (es.map (·.2)).sum

def Job.pages : Job → Nat
  | .write es => C81.pages es
  | _ => 0

/-- Settings of the memory manager: mm_page_size less the header, mm_cache, mm_limit,
mm_limit_behaviour, mm_limit_wm. -/
structure Limits where
  page_size : Nat
  cache : Nat
  limit : Bool
  error : Bool
  wm : Nat
deriving Repr, DecidableEq

def deeds (prog : List Job) : List Deed := prog.flatMap Job.deeds

/-- Threads that run these programs, with nothing in memory. -/
def start (c : Limits) (prog : Nat → List Job) : Room :=
  ⟨Rwlock.init, Locks.init, ⟨c.page_size, c.cache, c.limit, c.error, c.wm, 0, 0⟩, fun _ => 0, fun _ => 0, fun _ => none,
    fun t => deeds (prog t), fun _ => 0⟩

/-- A schedule: which of the `n` threads runs, and whether its wake-up is spurious. -/
def run (first : Bool) (n : Nat) : Room → List (Nat × Bool) → Res Room
  | s, [] => .ok s
  | s, (t, b) :: sched =>
    if t < n then
      match s.step first t b with
      | .ok s' => run first n s' sched
      | .err m => .err m
      | .abort m => .abort m
      | .ub m => .ub m
    else run first n s sched

/-- All threads can still finish, without spurious wake-ups. -/
def Finishes (first : Bool) (n : Nat) (s : Room) : Prop :=
  ∃ more, (∀ e ∈ more, e.2 = false) ∧ ∃ s', run first n s more = .ok s' ∧ ∀ t, t < n → s'.rest t = []

/-- Whatever has happened so far, all threads can still finish. -/
def NoHang (first : Bool) (c : Limits) (n : Nat) (prog : Nat → List Job) : Prop :=
  ∀ sched, ∃ s, run first n (start c prog) sched = .ok s ∧ Finishes first n s

/-- The threads keep the order that C59 asks for. -/
def Upwards (prog : List Job) : Prop := C59.Upwards [] (prog.flatMap Job.calls)

/-- A batch that could be written if it were alone. -/
def Fits (c : Limits) (es : List (Nat × Nat)) : Prop := pages es * c.page_size < c.wm + c.page_size

/-- All that is asked for. -/
def demand (n : Nat) (prog : Nat → List Job) : Nat := ((List.range n).map fun t => ((prog t).map Job.pages).sum).sum

/-- One more thread, number `n`, refreshes partitions. -/
def helped (s : Room) (n : Nat) (ps : List Nat) : Room := { s with rest := Room.set s.rest n (ps.flatMap Deed.refresh_run) }

/-- A thread waits only while all memory up to the limit is in use, unless it has just
been woken because a page is free. -/
def Needful (s : Room) : Prop :=
  ∀ t w, s.asleep t = some w → s.pool.limit_wm ≤ s.pool.count * s.pool.page_size ∧ (0 < s.pool.free → w = true)

/-- The full property: whatever the settings, if threads keep the order and every batch
fits, then nobody waits without need, no call fails unless failing is what is asked
for, and whatever has happened all threads can finish, at least if partitions get
refreshed meanwhile. -/
def Full : Prop :=
  ∀ (c : Limits) n prog, 0 < c.page_size → (∀ t, t < n → Upwards (prog t)) →
    (∀ t, t < n → ∀ es, .write es ∈ prog t → Fits c es) →
    ∀ sched, ∃ s, run false n (start c prog) sched = .ok s ∧ Needful s ∧ (c.error = false → ∀ t, s.failed t = 0) ∧
      ∃ ps, Finishes false (n + 1) (helped s n ps)

end Verif.C81
