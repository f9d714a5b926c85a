import Verif.Model.Control

/-! C59: operations of any kind, in any threads, cannot deadlock. -/
namespace Verif.C59

/-- What a thread may ask of the library, partitions named by number. -/
inductive Call
  /-- a batch with events in these partitions, and one that fails after them -/
  | write (ps : List Nat)
  | writeFailed (ps : List Nat)
  /-- a cursor positioned in a partition, moved to another one, closed -/
  | openCursor (p : Nat)
  | moveCursor (p q : Nat)
  | closeCursor (p : Nat)
  /-- looking for the partitions of a range -/
  | visit (p : Nat)
  /-- DROP (the file), DOWNLOAD, UPLOAD of a partition, doing something or nothing -/
  | file (p : Nat)
  | nothing (p : Nat)
  /-- REFRESH or MOVE of a partition -/
  | refresh (p : Nat)
  /-- SHOW, CREATE PARTITION, collecting garbage, choosing what to rebalance -/
  | look
  /-- SHOW STORAGES or PARTITIONS -/
  | showAll
  /-- SET, CHECKPOINT, anything on clouds, storages, the pipeline; DROP PARTITION,
  once the file is gone -/
  | change
deriving Repr, DecidableEq

/-- The lock operations of a call. -/
def Call.acts : Call → List Act
  | .write ps => Act.write ps
  | .writeFailed ps => Act.write_failed ps
  | .openCursor p => Act.cursor_open p
  | .moveCursor p q => Act.cursor_move p q
  | .closeCursor p => Act.cursor_close p
  | .visit p => Act.engine_foreach p
  | .file p => Act.engine_file p
  | .nothing p => Act.engine_file_nothing p
  | .refresh p => Act.refresh_run p
  | .look => Act.brief
  | .showAll => Act.show_engine
  | .change => Act.alter

def acts (prog : List Call) : List Act := prog.flatMap Call.acts

/-- Threads that run these programs. -/
def start (prog : Nat → List Call) : Threads := ⟨Rwlock.init, Locks.init, fun t => acts (prog t)⟩

/-- A schedule: which of the `n` threads runs, and whether its wake-up is
spurious. -/
def run (first : Bool) (n : Nat) : Threads → List (Nat × Bool) → Res Threads
  | s, [] => .ok s
  | s, (t, b) :: sched =>
    if t < n then
      match s.step first t b with
      | .ok s' => run first n s' sched
      | .err m => .err m
      | .abort m => .abort m
      | .ub m => .ub m
    else run first n s sched

/-- Whatever has happened so far, nothing undefined has, and all threads can still
finish, without spurious wake-ups. -/
def NoDeadlock (first : Bool) (n : Nat) (prog : Nat → List Call) : Prop :=
  ∀ sched, ∃ s, run first n (start prog) sched = .ok s ∧
    ∃ more, (∀ e ∈ more, e.2 = false) ∧
      ∃ s', run first n s more = .ok s' ∧ ∀ t, t < n → s'.rest t = []

/-- Every cursor is closed in the end, and only open ones are moved and closed.
`held` are the partitions of the open cursors. -/
def Proper : List Nat → List Call → Prop
  | held, [] => held = []
  | held, .openCursor p :: r => Proper (p :: held) r
  | held, .moveCursor p q :: r => p ∈ held ∧ Proper (q :: held.erase p) r
  | held, .closeCursor p :: r => p ∈ held ∧ Proper (held.erase p) r
  | held, _ :: r => Proper held r

/-- The full property: any number of threads, any proper programs, whichever way
the control lock treats waiting writers. -/
def Full : Prop :=
  ∀ first n prog, (∀ t, t < n → Proper [] (prog t)) → NoDeadlock first n prog

/-- The same for a control lock that lets readers pass waiting writers. -/
def FullReaders : Prop :=
  ∀ n prog, (∀ t, t < n → Proper [] (prog t)) → NoDeadlock false n prog

/-- Programs that visit partitions upwards: batches are in ascending order, no
call touches a partition below that of an open cursor, no service operation that
of an open cursor, and nothing is changed while a cursor is open. -/
def Upwards : List Nat → List Call → Prop
  | held, [] => held = []
  | held, .write ps :: r => ps.Pairwise (· ≤ ·) ∧ (∀ h ∈ held, ∀ p ∈ ps, h ≤ p) ∧ Upwards held r
  | held, .writeFailed ps :: r => ps.Pairwise (· ≤ ·) ∧ (∀ h ∈ held, ∀ p ∈ ps, h ≤ p) ∧ Upwards held r
  | held, .openCursor p :: r => (∀ h ∈ held, h ≤ p) ∧ Upwards (p :: held) r
  | held, .moveCursor p q :: r =>
    p ∈ held ∧ (∀ h ∈ held.erase p, h ≤ q) ∧ Upwards (q :: held.erase p) r
  | held, .closeCursor p :: r => p ∈ held ∧ Upwards (held.erase p) r
  | held, .visit p :: r => (∀ h ∈ held, h ≤ p) ∧ Upwards held r
  | held, .file p :: r => (∀ h ∈ held, h < p) ∧ Upwards held r
  | held, .nothing p :: r => (∀ h ∈ held, h < p) ∧ Upwards held r
  | held, .refresh p :: r => (∀ h ∈ held, h < p) ∧ Upwards held r
  | held, .look :: r => Upwards held r
  | held, .showAll :: r => Upwards held r
  | held, .change :: r => held = [] ∧ Upwards held r

/-- Programs that never ask twice for the control lock: one cursor at a time and
nothing beside it, batches of one event, no SHOW STORAGES or PARTITIONS. -/
def Single : List Nat → List Call → Prop
  | held, [] => held = []
  | held, .write ps :: r => held = [] ∧ ps.length ≤ 1 ∧ Single held r
  | held, .writeFailed ps :: r => held = [] ∧ ps.length ≤ 1 ∧ Single held r
  | held, .openCursor p :: r => held = [] ∧ Single [p] r
  | held, .moveCursor p q :: r => held = [p] ∧ Single [q] r
  | held, .closeCursor p :: r => held = [p] ∧ Single [] r
  | _, .showAll :: _ => False
  | held, .visit _ :: r => held = [] ∧ Single held r
  | held, .file _ :: r => held = [] ∧ Single held r
  | held, .nothing _ :: r => held = [] ∧ Single held r
  | held, .refresh _ :: r => held = [] ∧ Single held r
  | held, .look :: r => held = [] ∧ Single held r
  | held, .change :: r => held = [] ∧ Single held r

end Verif.C59
