import Verif.Model.Control
import Verif.Model.Durable

/-! Model of several threads that write, read and drop at the same time: when the
events of a batch become visible, when its record gets into the log, and in which
order the records stand there.  A step is what a thread does between two points at
which another thread can come in. -/
namespace Verif
namespace Interleave
open Wal (Rec)

/-- What identifies an event. -/
abbrev Key := Nat × List UInt8

/-- What a thread does. -/
inductive Instr where
  /-- control_lock_shared, control_lock_exclusive, control_unlock,
  runtime/config/global.h:136-152 -/
  | shared
  | exclusive
  | release
  /-- the rest of engine_lock, engine/engine/engine.c:117-168: find or create the
  partition and take its access lock -/
  | lock (p : Nat)
  /-- ref_unlock in engine_unlock, engine.c:170-180 -/
  | unlock (p : Nat)
  /-- memtable_set and `op->prev`, engine/engine/write.c:107-108 -/
  | set (e : Event)
  /-- wal_write, engine/wal/wal.c:198-218 -/
  | log (es : List Event)
  /-- memtable_set or memtable_unset for the last record, write.c:33-37 -/
  | undo
  /-- a cursor reads the partition -/
  | read (p : Nat)
  /-- engine_drop_reference up to control_unlock, engine/engine/op.c:245-268 -/
  | remove (p : Nat)
  /-- wal_write_op in engine_drop_reference, op.c:275-281 -/
  | logDrop
deriving Repr, DecidableEq

/-- A thread: what it still has to do, the previous versions in the records of its
log (`struct LogOp`, engine/wal/log.h, the last first), and the partition it has
removed and not yet logged. -/
structure Th where
  todo : List Instr
  undo : List (Key × Option Event)
  gone : Option Nat

/-- `mem` is the newest version of every event, in memory or in files (a refresh
does not change it, C14).  `known` are the partitions in the mapping.  `log` are the
records in all files of the log, in order.  Simplification: a previous version in
the file is put back by `undo` like one in memory (memtable_unset uncovers it). -/
structure State where
  control : Rwlock
  locks : Locks
  mem : Key → Option Event
  known : Nat → Bool
  log : List Rec
  th : Nat → Th

def setTh (s : State) (t : Nat) (x : Th) : Nat → Th := fun u => if u = t then x else s.th u

/-- The thread has done what it had to do first. -/
def done (s : State) (t : Nat) (k : List Instr) : Nat → Th := setTh s t { s.th t with todo := k }

/-- One version is changed. -/
def setMem (m : Key → Option Event) (k : Key) (v : Option Event) : Key → Option Event :=
  fun j => if j = k then v else m j

/-- The next number: config_lsn + 1 under the mutex of the log, wal.c:204-205 and 226-227. -/
def nextLsn (s : State) : Nat := s.log.length + 1

/-- One step of thread `t`.  Waiting is as in `Threads.step`.  Simplification: what
was in the file of a dropped partition (engine_drop_file, op.c:164-237) goes away
in the same step as what was in memory; a partition taken into the mapping again
has the lock it had before (nobody has it at that time). -/
def step (iv : Nat) (s : State) (t : Nat) (spurious : Bool) : Res State :=
  match (s.th t).todo with
  | [] => .ok s
  | .shared :: k =>
    match s.control.rdlock false with
    | some c => .ok { s with
        control := c,
        th := done s t k }
    | none => .ok s
  | .exclusive :: k =>
    match s.control.wrlock t with
    | some c => .ok { s with
        control := c,
        th := done s t k }
    | none => .ok s
  | .release :: k =>
    s.control.unlock.bind fun c => .ok { s with
        control := c,
        th := done s t k }
  | .lock p :: k =>
    match s.locks.wait t with
    | some (_, woken) =>
      if woken || spurious then
        let r := s.locks.wake t
        .ok { s with
          locks := r.1,
          known := fun q => q == p || s.known q,
          th := if r.2 then done s t k else s.th }
      else .ok s
    | none =>
      let r := s.locks.lockage_lock t (Act.accessOf p)
      .ok { s with
        locks := r.1,
        known := fun q => q == p || s.known q,
        th := if r.2 then done s t k else s.th }
  | .unlock p :: k => .ok { s with
      locks := s.locks.lockage_unlock (Act.accessOf p),
      th := done s t k }
  | .set e :: k => .ok { s with
      mem := setMem s.mem e.pair (some e),
      th := setTh s t { s.th t with
        todo := k,
        undo := (e.pair, s.mem e.pair) :: (s.th t).undo } }
  | .log es :: k => .ok { s with
      log := s.log ++ [.write (nextLsn s) es.length es],
      th := setTh s t { s.th t with
        todo := k,
        undo := [] } }
  | .undo :: k =>
    match (s.th t).undo with
    | [] => .ub "record that is not there"
    | (j, v) :: u => .ok { s with
        mem := setMem s.mem j v,
        th := setTh s t { s.th t with
          todo := k,
          undo := u } }
  | .read _ :: k => .ok { s with th := done s t k }
  | .remove p :: k =>
    if s.known p then .ok { s with
      mem := fun j => if Dur.partOf iv j.1 = p then none else s.mem j,
      known := fun q => q != p && s.known q,
      th := setTh s t { s.th t with
        todo := k,
        gone := some p } }
    else .ok { s with th := done s t k }
  | .logDrop :: k =>
    match (s.th t).gone with
    | none => .ok { s with th := done s t k }
    | some p => .ok { s with
        log := s.log ++ [.drop (nextLsn s) p],
        th := setTh s t { s.th t with
          todo := k,
          gone := none } }

namespace Instr

/-- One event of engine_write, write.c:98-108. -/
def put (iv : Nat) (e : Event) : List Instr := [shared, lock (Dur.partOf iv e.id), set e]

/-- One record in engine_commit, write.c:52-66. -/
def commit (iv : Nat) (e : Event) : List Instr := [unlock (Dur.partOf iv e.id), release]

/-- One record in engine_rollback, write.c:31-39. -/
def back (iv : Nat) (e : Event) : List Instr := [undo, unlock (Dur.partOf iv e.id), release]

/-- engine_write, write.c:74-138, that writes its record. -/
def engine_write (iv : Nat) (es : List Event) : List Instr :=
  es.flatMap (put iv) ++ log es :: es.flatMap (commit iv)

/-- engine_write that fails after these events: engine_rollback, write.c:24-43, from
the last record. -/
def engine_write_failed (iv : Nat) (es : List Event) : List Instr :=
  es.flatMap (put iv) ++ es.reverse.flatMap (back iv)

/-- A cursor opens the partition, reads and leaves it: engine_lock and
engine_unlock in engine_cursor_open_part and engine_cursor_reset,
engine/engine/engine_cursor.h:25-37 and 59-69. -/
def cursor (p n : Nat) : List Instr := [shared, lock p] ++ List.replicate n (read p) ++ [unlock p, release]

/-- engine_drop_reference, op.c:239-288. -/
def engine_drop_reference (p : Nat) : List Instr := [exclusive, remove p, release, logDrop]

end Instr
end Interleave
end Verif
