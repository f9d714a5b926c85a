import Verif.Model.Memtable

/-!
Batch writes in memory: engine/engine/write.c:24-138 with engine/wal/log.h.

The database is a table (the active memtable, `ref->part->memtable`) for each
partition; `route` gives the partition of an id (engine_lock finds or creates it,
C03-C05; a partition that does not exist yet has an empty table).  Locks are left
out (C31, C32), as are serial ids (C29) and the contents of the log record (C20).
No iterator is attached to the tables.
-/
namespace Verif.Batch

/-- Where the iteration of engine_write for an event throws, write.c:82-110:
- `logAdd`: log_add, the buffer cannot grow (nothing has been logged);
- `lock`: engine_lock fails after log_add (`op->ref` is NULL);
- `event`: event_allocate (the memory limit, heap_allocate) or the iov of
  log_add_event (`op->event` is NULL);
- `page`: memtable_set cannot allocate a page (only if it needs one). -/
inductive Fail where
  | none | logAdd | lock | event | page
deriving Repr, DecidableEq

/-- One event of a batch and what goes wrong with it. -/
structure Arg where
  event : Event
  fail : Fail := .none
deriving Repr, DecidableEq

/-- `struct LogOp`, log.h:19-24. -/
structure LogOp where
  ref : Option Nat
  event : Option Event
  prev : Option Event
deriving Repr, DecidableEq

/-- The tables by partition. -/
abbrev Tables := Nat → Memtable

/-- Replace the table of a partition. -/
def Tables.put (t : Tables) (p : Nat) (m : Memtable) : Tables := fun q => if q = p then m else t q

/-- The loop of engine_write, write.c:82-110: the tables, the log and whether an
exception was thrown. -/
def apply (mc : MemCmp) (route : Nat → Nat) : Tables → List LogOp → List Arg → Res (Tables × List LogOp × Bool)
  | t, log, [] => .ok (t, log, false)
  | t, log, a :: as =>
    -- validate key size, write.c:87-89
    if a.event.key.length > 255 then .ok (t, log, true)
    else match a.fail with
    | .logAdd => .ok (t, log, true)
    | .lock => .ok (t, log ++ [⟨none, none, none⟩], true)
    | .event => .ok (t, log ++ [⟨some (route a.event.id), none, none⟩], true)
    | f =>
      let p := route a.event.id
      match Memtable.set mc (f != .page) (t p) a.event with
      | .ok (m, prev) => apply mc route (t.put p m) (log ++ [⟨some p, some a.event, prev⟩]) as
      | .err _ => .ok (t, log ++ [⟨some p, some a.event, none⟩], true)
      | .abort w => .abort w
      | .ub w => .ub w

/-- The body of the loop of engine_rollback, write.c:31-39.  memtable_unset with
a NULL event compares the keys of a page with it. -/
def undo (mc : MemCmp) (t : Tables) (op : LogOp) : Res Tables :=
  match op.ref with
  | none => .ok t
  | some p =>
    match op.prev, op.event with
    | some e, _ => (Memtable.set mc true (t p) e).bind fun r => .ok (t.put p r.1)
    | none, some e => (Memtable.unset mc (t p) e).bind fun m => .ok (t.put p m)
    | none, none => .ub "memtable_unset: NULL event"

/-- The operations in the order of the rollback. -/
def undoAll (mc : MemCmp) : Tables → List LogOp → Res Tables
  | t, [] => .ok t
  | t, op :: ops => (undo mc t op).bind fun t' => undoAll mc t' ops

/-- engine_rollback, write.c:24-43.  With an empty log `log_last` is the element
before a NULL pointer, which compares greater than `log_first`. -/
def rollback (mc : MemCmp) (t : Tables) (log : List LogOp) : Res Tables :=
  match log with
  | [] => .ub "engine_rollback: log_last of an empty log"
  | log => undoAll mc t log.reverse

/-- engine_commit, write.c:45-72: the tables follow the lsn. -/
def commit (lsn : Nat) (t : Tables) : List LogOp → Tables
  | [] => t
  | op :: ops =>
    match op.ref with
    | none => commit lsn t ops
    | some p => commit lsn (t.put p ((t p).follow lsn)) ops

/-- A batch: its events, whether the log write fails, and its lsn otherwise. -/
structure Batch where
  args : List Arg
  logFails : Bool
  lsn : Nat
deriving Repr, DecidableEq

/-- engine_write, write.c:74-138: the tables and whether an error is returned. -/
def write (mc : MemCmp) (route : Nat → Nat) (t : Tables) (b : Batch) : Res (Tables × Bool) :=
  (apply mc route t [] b.args).bind fun (t', log, thrown) =>
  if thrown || b.logFails then (rollback mc t' log).bind fun t'' => .ok (t'', true)
  else .ok (commit b.lsn t' log, false)

end Verif.Batch
