import Verif.Model.Control

/-! Model of the lifetime of references and partitions while several threads work:
which thread reads `ref->part` when, which one replaces it, and which one frees what.
A step is what a thread does between two points at which another thread can come in:
a section under the engine mutex, a section under a lock of the partition, or a
single access. -/
namespace Verif
namespace Access

/-- `LockType`, engine/engine/lockage.h:19-24. -/
inductive Ty where
  | service
  | access
deriving Repr, DecidableEq

/-- The lock of a reference in its lockage, engine/engine/ref.h:18-23. -/
def lockOf (r : Nat) : Ty → Nat
  | .service => Act.serviceOf r
  | .access => Act.accessOf r

/-- A slice in the mapping and the reference it belongs to, ref.h:18-23. -/
structure Slice where
  min : Nat
  max : Nat
  ref : Nat
deriving Repr, DecidableEq

/-- The memory.  References and partitions are numbered as they are allocated,
numbers are not used again.  A partition stands for `struct Part` together with its
memtables and everything they point to. -/
structure Mem where
  map : List Slice
  /-- `ref->part` -/
  part : Nat → Nat
  refLive : Nat → Bool
  partLive : Nat → Bool
  next : Nat

/-- How engine_lock looks for a partition, engine/engine/engine.c:120-155: the first
one that does not end before the id; the one with the id; or that one, created if
there is none (with the limits config_interval_of and engine_fill_nolock make). -/
inductive How where
  | gte
  | match_
  | create (min max : Nat)
deriving Repr, DecidableEq

/-- What a thread does.  `i` is the variable that holds the reference: a cursor, a
record of the log, or a local variable. -/
inductive Instr where
  /-- control_lock_shared, control_lock_exclusive, control_unlock,
  runtime/config/global.h:136-152 -/
  | shared
  | exclusive
  | release
  /-- the search of engine_lock, engine.c:117-158; the shared lock is given back if
  nothing is found, engine.c:114-115 -/
  | find (i id : Nat) (how : How)
  /-- ref_lock, ref.h:56-60 -/
  | lock (i : Nat) (ty : Ty)
  /-- ref_unlock, ref.h:62-66 -/
  | unlock (i : Nat) (ty : Ty)
  /-- the end of engine_unlock, engine.c:178-179 -/
  | leave (i : Nat)
  /-- `ref->part` is read -/
  | load (i : Nat)
  /-- what was read is used: the partition, its index, its memtables, its events -/
  | use (i : Nat)
  /-- refresh_apply, engine/engine/refresh.c:145-162 -/
  | swap (i : Nat)
  /-- refresh_end, refresh.c:174-191 -/
  | free (i : Nat)
  /-- all partitions are looked at under the engine mutex: engine_show,
  engine_show.c:84-113, engine_rebalance_next, op.c:544-576, engine_gc, op.c:618-652 -/
  | look
  /-- engine_drop_reference, op.c:245-268; `empty` says whether the partition has no
  file (otherwise nothing is done) -/
  | remove (id : Nat) (empty : Bool)
  /-- ref_free, op.c:272-273 and ref.h:35-41 -/
  | freeRef
deriving Repr, DecidableEq

/-- A variable with a reference, and what was read from `ref->part`. -/
structure Slot where
  ref : Nat
  ptr : Option Nat
deriving Repr, DecidableEq

/-- A thread: what it still has to do, its variables, and the reference that
engine_drop_reference has removed and not yet freed. -/
structure Th where
  todo : List Instr
  slot : Nat → Option Slot
  gone : Option Nat

structure State where
  control : Rwlock
  locks : Locks
  mem : Mem
  th : Nat → Th

/-- engine_create, op.c:25-66, as far as memory goes. -/
def engine_create (m : Mem) (min max : Nat) : Mem :=
  { map := m.map.filter (fun s => s.min ≤ min) ++ [⟨min, max, m.next⟩] ++ m.map.filter (fun s => ¬ s.min ≤ min),
    part := fun r => if r = m.next then m.next else m.part r,
    refLive := fun r => r == m.next || m.refLive r,
    partLive := fun p => p == m.next || m.partLive p,
    next := m.next + 1 }

/-- The search of engine_lock, engine.c:120-155.  Simplification: the tree is a list
in the order of the starts. -/
def search (m : Mem) (id : Nat) : How → Mem × Option Nat
  | .gte => (m, (m.map.find? (fun s => id ≤ s.max)).map (·.ref))
  | .match_ => (m, (m.map.find? (fun s => s.min ≤ id ∧ id ≤ s.max)).map (·.ref))
  | .create min max =>
    match m.map.find? (fun s => s.min ≤ id ∧ id ≤ s.max) with
    | some s => (m, some s.ref)
    | none => (engine_create m min max, some m.next)

/-- part_free, and with a reference ref_free. -/
def freePart (m : Mem) (p : Nat) : Mem := { m with partLive := fun q => q != p && m.partLive q }

def setTh (s : State) (t : Nat) (x : Th) : Nat → Th := fun u => if u = t then x else s.th u

def setSlot (x : Th) (i : Nat) (v : Option Slot) : Nat → Option Slot := fun j => if j = i then v else x.slot j

/-- The thread has done what it had to do first. -/
def done (s : State) (t : Nat) (k : List Instr) : Nat → Th := setTh s t { s.th t with todo := k }

/-- A variable is set. -/
def put (s : State) (t i : Nat) (v : Option Slot) (k : List Instr) : Nat → Th :=
  setTh s t { s.th t with
    todo := k,
    slot := setSlot (s.th t) i v }

/-- One step of thread `t`.  What concerns a reference that was not found is skipped,
as the program does.  Waiting is as in `Threads.step`. -/
def step (s : State) (t : Nat) (spurious : Bool) : Res State :=
  match (s.th t).todo with
  | [] => .ok s
  | .shared :: k =>
    match s.control.rdlock false with
    | some c => .ok { s with
        control := c,
        th := done s t k }
    | none => .ok s
  | .exclusive :: k =>
    match s.control.wrlock t with
    | some c => .ok { s with
        control := c,
        th := done s t k }
    | none => .ok s
  | .release :: k =>
    s.control.unlock.bind fun c => .ok { s with
        control := c,
        th := done s t k }
  | .find i id how :: k =>
    match search s.mem id how with
    | (m, some r) => .ok { s with
        mem := m,
        th := put s t i (some ⟨r, none⟩) k }
    | (m, none) =>
      s.control.unlock.bind fun c => .ok { s with
          control := c,
          mem := m,
          th := put s t i none k }
  | .lock i ty :: k =>
    match (s.th t).slot i with
    | none => .ok { s with th := done s t k }
    | some v =>
      if s.mem.refLive v.ref then
        match s.locks.wait t with
        | some (_, woken) =>
          if woken || spurious then
            let r := s.locks.wake t
            .ok { s with
              locks := r.1,
              th := if r.2 then done s t k else s.th }
          else .ok s
        | none =>
          let r := s.locks.lockage_lock t (lockOf v.ref ty)
          .ok { s with
            locks := r.1,
            th := if r.2 then done s t k else s.th }
      else .ub "lock of a freed reference"
  | .unlock i ty :: k =>
    match (s.th t).slot i with
    | none => .ok { s with th := done s t k }
    | some v =>
      if s.mem.refLive v.ref then .ok { s with
          locks := s.locks.lockage_unlock (lockOf v.ref ty),
          th := done s t k }
      else .ub "unlock of a freed reference"
  | .leave i :: k =>
    match (s.th t).slot i with
    | none => .ok { s with th := done s t k }
    | some _ =>
      s.control.unlock.bind fun c => .ok { s with
          control := c,
          th := put s t i none k }
  | .load i :: k =>
    match (s.th t).slot i with
    | none => .ok { s with th := done s t k }
    | some v =>
      if s.mem.refLive v.ref then
        .ok { s with th := put s t i (some { v with ptr := some (s.mem.part v.ref) }) k }
      else .ub "read of a freed reference"
  | .use i :: k =>
    match (s.th t).slot i with
    | none => .ok { s with th := done s t k }
    | some v =>
      match v.ptr with
      | none => .ub "use of a pointer that was not set"
      | some p => if s.mem.partLive p then .ok { s with th := done s t k } else .ub "use of a freed partition"
  | .swap i :: k =>
    match (s.th t).slot i with
    | none => .ok { s with th := done s t k }
    | some v =>
      if s.mem.refLive v.ref then
        .ok { s with
          mem := { s.mem with
            part := fun r => if r = v.ref then s.mem.next else s.mem.part r,
            partLive := fun p => p == s.mem.next || s.mem.partLive p,
            next := s.mem.next + 1 },
          th := done s t k }
      else .ub "write to a freed reference"
  | .free i :: k =>
    match (s.th t).slot i with
    | none => .ok { s with th := done s t k }
    | some v =>
      match v.ptr with
      | none => .ub "use of a pointer that was not set"
      | some p =>
        if s.mem.partLive p then .ok { s with
            mem := freePart s.mem p,
            th := done s t k }
        else .ub "partition freed twice"
  | .look :: k =>
    if s.mem.map.all (fun e => s.mem.refLive e.ref && s.mem.partLive (s.mem.part e.ref)) then
      .ok { s with th := done s t k }
    else .ub "use of a freed partition"
  | .remove id empty :: k =>
    match s.mem.map.find? (fun e => e.min ≤ id ∧ id ≤ e.max) with
    | none => .ok { s with th := done s t k }
    | some e =>
      if s.mem.refLive e.ref && s.mem.partLive (s.mem.part e.ref) then
        if empty then .ok { s with
          mem := { s.mem with map := s.mem.map.filter (fun x => x.ref ≠ e.ref) },
          th := setTh s t { s.th t with
            todo := k,
            gone := some e.ref } }
        else .ok { s with th := done s t k }
      else .ub "use of a freed partition"
  | .freeRef :: k =>
    match (s.th t).gone with
    | none => .ok { s with th := done s t k }
    | some r =>
      if s.mem.refLive r && s.mem.partLive (s.mem.part r) then .ok { s with
          mem := { freePart s.mem (s.mem.part r) with refLive := fun q => q != r && s.mem.refLive q },
          th := setTh s t { s.th t with
            todo := k,
            gone := none } }
      else .ub "reference freed twice"

namespace Instr

/-- engine_lock, engine.c:108-168. -/
def engine_lock (i id : Nat) (how : How) (ty : Ty) : List Instr := [shared, find i id how, lock i ty]

/-- engine_unlock, engine.c:170-180. -/
def engine_unlock (i : Nat) (ty : Ty) : List Instr := [unlock i ty, leave i]

/-- The first half of engine_write for record `i` of the log, engine/engine/write.c:98-108. -/
def write_one (i : Nat) (e : Nat × How) : List Instr := engine_lock i e.1 e.2 .access ++ [load i, use i]

/-- engine_commit or engine_rollback for record `i`, write.c:45-72 and 24-43. -/
def commit_one (i : Nat) : List Instr := [load i, use i] ++ engine_unlock i .access

/-- The variables of the records of the log: odd numbers from `2 * k + 1` on (even
ones are cursors). -/
def writes : Nat → List (Nat × How) → List Instr
  | _, [] => []
  | k, e :: es => write_one (2 * k + 1) e ++ writes (k + 1) es

/-- The records are committed from the first. -/
def commits : Nat → Nat → List Instr
  | _, 0 => []
  | k, n + 1 => commit_one (2 * k + 1) ++ commits (k + 1) n

/-- The records are rolled back from the last. -/
def rollbacks : Nat → List Instr
  | 0 => []
  | n + 1 => commit_one (2 * n + 1) ++ rollbacks n

/-- engine_write, write.c:74-138.  With `back` the write fails and engine_rollback
goes back from the last record. -/
def engine_write (es : List (Nat × How)) (back : Bool) : List Instr :=
  writes 0 es ++ (if back then rollbacks es.length else commits 0 es.length)

/-- engine_cursor_open_part, engine/engine/engine_cursor.h:25-37. -/
def cursor_open (i id : Nat) : List Instr := engine_lock i id .gte .access ++ [load i, use i]

/-- engine_cursor_next in the partition, engine_cursor.h:96-99, engine_cursor_at and
what the caller does with the event. -/
def cursor_use (i : Nat) : List Instr := [use i]

/-- engine_cursor_reset, engine_cursor.h:59-69. -/
def cursor_close (i : Nat) : List Instr := [use i] ++ engine_unlock i .access

/-- engine_foreach, op.c:145-162. -/
def engine_foreach (i id : Nat) : List Instr := engine_lock i id .gte .access ++ engine_unlock i .access

/-- engine_drop_file, op.c:164-237, engine_download, op.c:325-384, and
engine_upload, op.c:394-454; `stop` is where they find nothing to do. -/
def engine_file (i id : Nat) (stop : Bool) : List Instr :=
  engine_lock i id .match_ .service ++ [load i, use i] ++
    (if stop then [] else [lock i .access, use i, unlock i .access]) ++ engine_unlock i .service

/-- Where a refresh ends: before it has begun, in the merge, in refresh_end before
part_free, or at the end. -/
inductive Stop where
  | begin
  | merge
  | fin
  | never
deriving Repr, DecidableEq

/-- refresh_run, refresh.c:201-237, with refresh_begin, 55-118, refresh_merge,
120-132, refresh_apply, 134-166, and refresh_end, 168-199. -/
def refresh_run (i id : Nat) (stop : Stop) : List Instr :=
  engine_lock i id .match_ .service ++ [load i, use i] ++
    (match stop with
     | .begin => []
     | .merge => [lock i .access, use i, unlock i .access, use i]
     | .fin => [lock i .access, use i, unlock i .access, use i, lock i .access, swap i, unlock i .access, use i]
     | .never =>
       [lock i .access, use i, unlock i .access, use i, lock i .access, swap i, unlock i .access, use i, free i]) ++
    engine_unlock i .service

/-- engine_drop_reference, op.c:239-288. -/
def engine_drop_reference (id : Nat) (empty : Bool) : List Instr := [exclusive, remove id empty, release, freeRef]

/-- engine_fill, op.c:132-143, for one partition. -/
def engine_fill (i id min max : Nat) : List Instr := [shared, find i id (.create min max), leave i]

/-- engine_show, engine_rebalance_next, engine_gc: see `look`. -/
def engine_look : List Instr := [shared, look, release]

end Instr
end Access
end Verif
