import Verif.Model.Lockage

/-! Model of the control lock (runtime/runtime/rwlock.h, main/main/main.c) and of
the locks each operation of the engine takes.  The engine mutex is not modelled:
it is only held for short sections, which are single steps here; waiting for a
partition lock releases it (lockage.h:87). -/
namespace Verif

/-- `struct Rwlock`, runtime/runtime/rwlock.h:18-21: a pthread_rwlock_t with
default attributes.  `writer` is the thread that holds it exclusively, `waiting`
the threads asleep in pthread_rwlock_wrlock. -/
structure Rwlock where
  readers : Nat
  writer : Option Nat
  waiting : List Nat
deriving Repr, DecidableEq

namespace Rwlock

/-- rwlock_init, rwlock.h:23-27. -/
def init : Rwlock := ⟨0, none, []⟩

/-- rwlock_rdlock, rwlock.h:35-39; `none` when the thread has to wait.  POSIX
leaves open whether a reader passes waiting writers: with `first` writers go
first, without it readers do (glibc's default).  Simplification: a thread that
reads while it is the writer waits (glibc returns an error instead). -/
def rdlock (first : Bool) (l : Rwlock) : Option Rwlock :=
  if l.writer = none ∧ (first = false ∨ l.waiting = []) then
    some { l with readers := l.readers + 1 }
  else none

/-- rwlock_wrlock, rwlock.h:41-45; `none` when the thread has to wait. -/
def wrlock (t : Nat) (l : Rwlock) : Option Rwlock :=
  if l.writer = none ∧ l.readers = 0 then
    some { l with
      writer := some t,
      waiting := l.waiting.filter (fun u => decide (u ≠ t)) }
  else none

/-- The thread falls asleep in rwlock_wrlock, rwlock.h:41-45. -/
def sleep (t : Nat) (l : Rwlock) : Rwlock :=
  if t ∈ l.waiting then l else { l with waiting := t :: l.waiting }

/-- rwlock_unlock, rwlock.h:56-60; unlocking a lock nobody holds is undefined. -/
def unlock (l : Rwlock) : Res Rwlock :=
  match l.writer with
  | some _ => .ok { l with writer := none }
  | none =>
    match l.readers with
    | 0 => .ub "unlock of a free rwlock"
    | n + 1 => .ok { l with readers := n }

end Rwlock

/-- What a thread does to the locks. -/
inductive Act
  /-- control_lock_shared, runtime/config/global.h:136-140 -/
  | shared
  /-- control_lock_exclusive, global.h:142-146 -/
  | exclusive
  /-- control_unlock, global.h:148-152 -/
  | release
  /-- ref_lock, engine/engine/ref.h:56-60 -/
  | take (l : Nat)
  /-- ref_unlock, ref.h:62-66 -/
  | give (l : Nat)
deriving Repr, DecidableEq

namespace Act

/-- LOCK_SERVICE of partition `p`, engine/engine/lockage.h:19-24. -/
def serviceOf (p : Nat) : Nat := 2 * p

/-- LOCK_ACCESS of partition `p`, lockage.h:19-24. -/
def accessOf (p : Nat) : Nat := 2 * p + 1

/-- engine_lock of a partition that is found or created, engine/engine/engine.c:108-168:
the shared control lock is kept. -/
def engine_lock (l : Nat) : List Act := [shared, take l]

/-- engine_unlock, engine.c:170-180. -/
def engine_unlock (l : Nat) : List Act := [give l, release]

/-- engine_lock of a partition that is not found, engine.c:114-115 and 125-126 or
137-138; also engine_fill, op.c:132-143, engine_rebalance_next, op.c:544-576,
engine_gc, op.c:618-652, and the SHOW commands that do not read partitions,
main/main/execute.c:551-579. -/
def brief : List Act := [shared, release]

/-- SHOW STORAGES, PARTITION and PARTITIONS: main_execute takes the shared lock,
execute.c:509 and 554-556, engine_show takes it again, engine_show.c:84-85. -/
def show_engine : List Act := [shared, shared, release, release]

/-- Commands under the exclusive lock: SET and everything on clouds, storages and
the pipeline, execute.c:510-521 and 557-559; engine_drop_reference, op.c:239-270,
engine_checkpoint, op.c:596-616, engine_resume, op.c:725-745.  None of them takes
another lock meanwhile. -/
def alter : List Act := [exclusive, release]

/-- engine_write with events in the partitions `ps`, write.c:83-109, and
engine_commit, write.c:45-72. -/
def write (ps : List Nat) : List Act :=
  ps.flatMap (fun p => engine_lock (accessOf p)) ++ ps.flatMap (fun p => engine_unlock (accessOf p))

/-- engine_write that fails after events in the partitions `ps`, and
engine_rollback, write.c:24-43: the locks are released in reverse order. -/
def write_failed (ps : List Nat) : List Act :=
  ps.flatMap (fun p => engine_lock (accessOf p)) ++ ps.reverse.flatMap (fun p => engine_unlock (accessOf p))

/-- engine_cursor_open_part, engine_cursor.h:25-37. -/
def cursor_open (p : Nat) : List Act := engine_lock (accessOf p)

/-- engine_cursor_reset, engine_cursor.h:59-69. -/
def cursor_close (p : Nat) : List Act := engine_unlock (accessOf p)

/-- engine_cursor_next from partition `p` into `q`, engine_cursor.h:90-110. -/
def cursor_move (p q : Nat) : List Act := engine_unlock (accessOf p) ++ engine_lock (accessOf q)

/-- engine_foreach, op.c:145-162. -/
def engine_foreach (p : Nat) : List Act := engine_lock (accessOf p) ++ engine_unlock (accessOf p)

/-- engine_drop_file, op.c:164-237, engine_download, op.c:325-384, and
engine_upload, op.c:394-454, that run to the end. -/
def engine_file (p : Nat) : List Act :=
  engine_lock (serviceOf p) ++ [take (accessOf p), give (accessOf p)] ++ engine_unlock (serviceOf p)

/-- The same three when there is nothing to do, op.c:181-188, 340-371, 409-441,
and a refresh that stops early, engine/engine/refresh.c:70-101. -/
def engine_file_nothing (p : Nat) : List Act := engine_lock (serviceOf p) ++ engine_unlock (serviceOf p)

/-- refresh_run, refresh.c:201-237, with refresh_begin, 55-118, and
refresh_apply, 134-166. -/
def refresh_run (p : Nat) : List Act :=
  engine_lock (serviceOf p) ++ [take (accessOf p), give (accessOf p)] ++
    [take (accessOf p), give (accessOf p)] ++ engine_unlock (serviceOf p)

end Act

/-- The locks, and what each thread still has to do. -/
structure Threads where
  control : Rwlock
  locks : Locks
  rest : Nat → List Act

namespace Threads

def setRest (s : Threads) (t : Nat) (k : List Act) : Nat → List Act := fun u => if u = t then k else s.rest u

/-- One step of thread `t`: its next lock operation if that does not have to wait.
A thread asleep on a partition lock (lockage.h:87) runs only when woken, or
`spurious`ly; one asleep on the control lock when the lock can be had. -/
def step (first : Bool) (s : Threads) (t : Nat) (spurious : Bool) : Res Threads :=
  match s.rest t with
  | [] => .ok s
  | .shared :: k =>
    match s.control.rdlock first with
    | some c => .ok { s with
        control := c,
        rest := s.setRest t k }
    | none => .ok s
  | .exclusive :: k =>
    match s.control.wrlock t with
    | some c => .ok { s with
        control := c,
        rest := s.setRest t k }
    | none => .ok { s with control := s.control.sleep t }
  | .release :: k =>
    match s.control.unlock with
    | .ok c => .ok { s with
        control := c,
        rest := s.setRest t k }
    | .err m => .err m
    | .abort m => .abort m
    | .ub m => .ub m
  | .give l :: k => .ok { s with
      locks := s.locks.lockage_unlock l,
      rest := s.setRest t k }
  | .take l :: k =>
    match s.locks.wait t with
    | some (_, woken) =>
      if woken || spurious then
        let r := s.locks.wake t
        .ok { s with
          locks := r.1,
          rest := if r.2 then s.setRest t k else s.rest }
      else .ok s
    | none =>
      let r := s.locks.lockage_lock t l
      .ok { s with
        locks := r.1,
        rest := if r.2 then s.setRest t k else s.rest }

end Threads
end Verif
