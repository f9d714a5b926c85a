import Verif.Model.Access

/-! Model of which data threads touch under which locks.  Programs are those of
`Access`, with the engine mutex taken and given back explicitly and with what is read
and written at each step.  Two accesses can happen at once if both are the next thing
two threads do.

Not modelled: what has a lock of its own (wal, service queue, memory manager), atomic
variables (`count`, `lsn_min` and `lsn_max` of memtables, engine/io/memtable.h:33-35),
what never changes after a partition has been published (`id`, `source`, `time_create`),
what only changes under the exclusive control lock (storages, pipeline, configuration),
and `part->file`, which engine_download sets while the state still says there is none. -/
namespace Verif
namespace Races
open Access

/-- The function an access is made in. -/
inductive Fn where
  | engine_lock
  | engine_unlock
  | engine_write
  | engine_rollback
  | engine_commit
  | part_cursor
  | engine_drop_file
  | engine_download
  | engine_upload
  | refresh_begin
  | refresh_merge
  | refresh_apply
  | refresh_end
  | engine_drop_reference
  | ref_free
  | engine_show
  | engine_gc
  | engine_rebalance
  | engine_checkpoint
  | engine_resume
deriving Repr, DecidableEq

/-- What a partition has, engine/io/part.h:17-34: its state, its index with its data,
the memtable that `memtable` points to (with that pointer), the other memtable, the
mark that a refresh is scheduled, and the cloud. -/
inductive Field where
  | state
  | index
  | active
  | rotated
  | refresh
  | cloud
deriving Repr, DecidableEq

/-- What can be touched: the mapping, the lists and counters of the storages
(engine/storage/storage.h:17-27), the locks of the references, `ref->part`, or a part
of a partition. -/
inductive Kind where
  | mapping
  | storages
  | lockage
  | ref
  | part (f : Field)
deriving Repr, DecidableEq

inductive Loc where
  | mapping
  | storages
  | lockage
  | ref (r : Nat)
  | part (p : Nat) (f : Field)
deriving Repr, DecidableEq

/-- An access: where, whether it writes, in which function. -/
structure Acc where
  loc : Loc
  w : Bool
  fn : Fn
deriving Repr, DecidableEq

/-- What a thread does.  `op` is a step of `Access` with what it touches by itself,
`use` is the use of the partition in variable `i`, and `look` goes through all
partitions, or the one with the id `pick`. -/
inductive Code where
  | mutex_lock
  | mutex_unlock
  | op (x : Instr) (fn : Fn)
  | use (i : Nat) (fn : Fn) (acc : List (Field × Bool))
  | look (fn : Fn) (pick : Option Nat) (acc : List (Kind × Bool))
deriving Repr, DecidableEq

/-- The step of `Access` that it is. -/
def Code.base : Code → Option Instr
  | .mutex_lock => none
  | .mutex_unlock => none
  | .op x _ => some x
  | .use i _ _ => some (.use i)
  | .look _ _ _ => some .look

structure State where
  base : Access.State
  mutex : Option Nat
  code : Nat → List Code

def setCode (s : State) (t : Nat) (k : List Code) : Nat → List Code := fun u => if u = t then k else s.code u

/-- All fields are written: part_free, engine/io/part.c:46-54. -/
def part_free (fn : Fn) (p : Nat) : List Acc :=
  [Field.state, .index, .active, .rotated, .refresh, .cloud].map fun f => ⟨.part p f, true, fn⟩

/-- The places of a kind that belong to some references and partitions. -/
def places (refs parts : List Nat) : Kind → List Loc
  | .mapping => [.mapping]
  | .storages => [.storages]
  | .lockage => [.lockage]
  | .ref => refs.map .ref
  | .part f => parts.map fun p => .part p f

/-- Whether the search of engine_lock creates a partition, engine.c:136-148. -/
def creates (m : Mem) (id : Nat) : How → Bool
  | .create _ _ => (m.map.find? (fun s => s.min ≤ id ∧ id ≤ s.max)).isNone
  | _ => false

/-- What a step of `Access` touches by itself. -/
def touches (s : Access.State) (t : Nat) (fn : Fn) : Instr → List Acc
  | .find _ id how =>
    -- engine.c:120-155; with a new partition mapping_add and storage_add, op.c:44-60,
    -- and service_refresh of the previous head, engine.c:153-154 and service.h:113-130
    ⟨.mapping, false, fn⟩ ::
      (if creates s.mem id how then
        [⟨.mapping, true, fn⟩, ⟨.storages, true, fn⟩] ++
          (match s.mem.map.getLast? with
           | none => []
           | some e => [⟨.ref e.ref, false, fn⟩, ⟨.part (s.mem.part e.ref) .cloud, false, fn⟩])
       else [])
  | .lock i _ =>
    -- ref_lock, ref.h:56-60; a thread that waits touches nothing
    match (s.th t).slot i, s.locks.wait t with
    | some _, none => [⟨.lockage, true, fn⟩]
    | _, _ => []
  | .unlock i _ =>
    match (s.th t).slot i with
    | some _ => [⟨.lockage, true, fn⟩]
    | none => []
  | .load i =>
    match (s.th t).slot i with
    | some v => [⟨.ref v.ref, false, fn⟩]
    | none => []
  | .swap i =>
    -- refresh.c:145-162; the new partition is not known to others
    match (s.th t).slot i with
    | some v =>
      [⟨.ref v.ref, true, fn⟩, ⟨.storages, true, fn⟩] ++
        (match v.ptr with
         | some p => [⟨.part p .state, false, fn⟩, ⟨.part p .index, false, fn⟩, ⟨.part p .cloud, true, fn⟩,
             ⟨.part p .active, true, fn⟩]
         | none => [])
    | none => []
  | .free i =>
    -- refresh.c:186-191
    match (s.th t).slot i with
    | some v => (match v.ptr with | some p => part_free fn p | none => [])
    | none => []
  | .remove id empty =>
    -- op.c:246-268
    ⟨.mapping, false, fn⟩ ::
      (match s.mem.map.find? (fun e => e.min ≤ id ∧ id ≤ e.max) with
       | none => []
       | some e =>
         [⟨.ref e.ref, false, fn⟩, ⟨.part (s.mem.part e.ref) .state, false, fn⟩] ++
           (if empty then [⟨.mapping, true, fn⟩, ⟨.storages, true, fn⟩, ⟨.part (s.mem.part e.ref) .cloud, true, fn⟩]
            else []))
  | .freeRef =>
    -- ref.h:35-41
    match (s.th t).gone with
    | some r => ⟨.ref r, true, fn⟩ :: part_free fn (s.mem.part r)
    | none => []
  | _ => []

/-- What the next step of thread `t` touches. -/
def accesses (s : State) (t : Nat) : List Acc :=
  match s.code t with
  | .op x fn :: _ => touches s.base t fn x
  | .use i fn acc :: _ =>
    match (s.base.th t).slot i with
    | some v => (match v.ptr with | some p => acc.map (fun a => ⟨.part p a.1, a.2, fn⟩) | none => [])
    | none => []
  | .look fn pick acc :: _ =>
    let es := s.base.mem.map.filter (fun e => match pick with | some id => e.min ≤ id ∧ id ≤ e.max | none => True)
    acc.flatMap fun a =>
      (places (es.map (·.ref)) (es.map fun e => s.base.mem.part e.ref) a.1).map fun l => ⟨l, a.2, fn⟩
  | _ => []

/-- One step of thread `t`.  A thread that has to wait for a lock of a partition waits
with the condition variable, engine/engine/lockage.h:60-83: it gives the engine mutex
back, and goes on only when it has it again. -/
def step (s : State) (t : Nat) (spurious : Bool) : Res State :=
  match s.code t with
  | [] => .ok s
  | .mutex_lock :: k =>
    match s.mutex with
    | none => .ok { s with
        mutex := some t,
        code := setCode s t k }
    | some _ => .ok s
  | .mutex_unlock :: k =>
    if s.mutex = some t then .ok { s with
        mutex := none,
        code := setCode s t k }
    else .ub "unlock of a mutex that is not held"
  | _ :: k =>
    if (s.base.locks.wait t).isSome ∧ s.mutex.isSome then .ok s
    else
      (Access.step s.base t spurious).bind fun b =>
        if (b.th t).todo.length < (s.base.th t).todo.length then
          .ok ⟨b, if (s.base.locks.wait t).isSome then some t else s.mutex, setCode s t k⟩
        else
          .ok ⟨b, if (b.locks.wait t).isSome ∧ s.mutex = some t then none else s.mutex, s.code⟩

namespace Code

/-- engine_lock, engine.c:108-168.  Simplification: if nothing is found, the control
lock is given back before the mutex, not after it. -/
def engine_lock (i id : Nat) (how : How) (ty : Ty) : List Code :=
  [op .shared .engine_lock, mutex_lock, op (.find i id how) .engine_lock, op (.lock i ty) .engine_lock, mutex_unlock]

/-- engine_unlock, engine.c:170-180.  Simplification: this and other sections are also
passed, with nothing done in them, when no reference was found. -/
def engine_unlock (i : Nat) (ty : Ty) : List Code :=
  [mutex_lock, op (.unlock i ty) .engine_unlock, op (.leave i) .engine_unlock, mutex_unlock]

/-- engine_write for record `i` of the log, engine/engine/write.c:98-108. -/
def write_one (i : Nat) (e : Nat × How) : List Code :=
  engine_lock i e.1 e.2 .access ++ [op (.load i) .engine_write, use i .engine_write [(.active, true)]]

/-- engine_commit for record `i`, write.c:51-66: part_refresh_ready and
service_refresh (memtable_follow is atomic). -/
def commit_one (i : Nat) : List Code :=
  [op (.load i) .engine_commit,
   use i .engine_commit [(.refresh, false), (.active, false), (.cloud, false), (.refresh, true)]] ++
    engine_unlock i .access

/-- engine_rollback for record `i`, write.c:31-39. -/
def rollback_one (i : Nat) : List Code :=
  [op (.load i) .engine_rollback, use i .engine_rollback [(.active, true)]] ++ engine_unlock i .access

/-- The variables of the records of the log: odd numbers from `2 * k + 1` on. -/
def writes : Nat → List (Nat × How) → List Code
  | _, [] => []
  | k, e :: es => write_one (2 * k + 1) e ++ writes (k + 1) es

def commits : Nat → Nat → List Code
  | _, 0 => []
  | k, n + 1 => commit_one (2 * k + 1) ++ commits (k + 1) n

def rollbacks : Nat → List Code
  | 0 => []
  | n + 1 => rollback_one (2 * n + 1) ++ rollbacks n

/-- engine_write, write.c:74-138; with `back` the write fails. -/
def engine_write (es : List (Nat × How)) (back : Bool) : List Code :=
  writes 0 es ++ (if back then rollbacks es.length else commits 0 es.length)

/-- What a cursor reads: part_cursor_open, engine/io/part_cursor.h:26-56, and
reader_execute, engine/io/reader.h:80-136. -/
def cursor_reads : List (Field × Bool) :=
  [(.active, false), (.rotated, false), (.state, false), (.index, false), (.cloud, false)]

/-- engine_cursor_open_part, engine/engine/engine_cursor.h:25-37. -/
def cursor_open (i id : Nat) : List Code :=
  engine_lock i id .gte .access ++ [op (.load i) .part_cursor, use i .part_cursor cursor_reads]

/-- engine_cursor_next in the partition, engine_cursor.h:96-99. -/
def cursor_use (i : Nat) : List Code := [use i .part_cursor cursor_reads]

/-- engine_cursor_reset, engine_cursor.h:59-69. -/
def cursor_close (i : Nat) : List Code := [use i .part_cursor [(.active, false)]] ++ engine_unlock i .access

/-- engine_foreach, op.c:145-162. -/
def engine_foreach (i id : Nat) : List Code := engine_lock i id .gte .access ++ engine_unlock i .access

/-- engine_drop_file, op.c:164-237; with `stop` there is nothing to do.
storage_remove_metrics touches no counter, as the state is none, storage.h:79-81. -/
def engine_drop_file (i id : Nat) (stop : Bool) : List Code :=
  engine_lock i id .match_ .service ++
    [op (.load i) .engine_drop_file, use i .engine_drop_file [(.state, false)]] ++
    (if stop then [] else
      [mutex_lock, op (.lock i .access) .engine_drop_file, mutex_unlock,
       use i .engine_drop_file [(.state, false), (.cloud, false), (.state, true), (.index, true)],
       mutex_lock, op (.unlock i .access) .engine_drop_file, mutex_unlock]) ++
    engine_unlock i .service

/-- engine_download, op.c:325-384: part_download opens the file and reads the index
into `part->index`, engine/io/part.c:66-73 and 153-164, under the service lock only. -/
def engine_download (i id : Nat) (stop : Bool) : List Code :=
  engine_lock i id .match_ .service ++
    [op (.load i) .engine_download, use i .engine_download [(.cloud, false), (.state, false)]] ++
    (if stop then [] else
      [use i .engine_download [(.index, true)],
       mutex_lock, op (.lock i .access) .engine_download, use i .engine_download [(.state, true)],
       op (.unlock i .access) .engine_download, mutex_unlock]) ++
    engine_unlock i .service

/-- engine_upload, op.c:394-454: part_upload reads the index from the file into a
variable of its own, part.c:98-131. -/
def engine_upload (i id : Nat) (stop : Bool) : List Code :=
  engine_lock i id .match_ .service ++
    [op (.load i) .engine_upload, use i .engine_upload [(.cloud, false), (.state, false)]] ++
    (if stop then [] else
      [use i .engine_upload [(.cloud, false), (.state, false)],
       mutex_lock, op (.lock i .access) .engine_upload, use i .engine_upload [(.state, true)],
       op (.unlock i .access) .engine_upload, mutex_unlock]) ++
    engine_unlock i .service

/-- The rest of refresh_begin, engine/engine/refresh.c:107-114, and refresh_merge,
120-132, with merger_execute, engine/io/merger.c:100-137. -/
def refresh_merge (i : Nat) : List Code :=
  [mutex_lock, op (.lock i .access) .refresh_begin, use i .refresh_begin [(.active, true), (.rotated, true)],
   op (.unlock i .access) .refresh_begin, mutex_unlock,
   use i .refresh_merge [(.state, false), (.index, false), (.cloud, false), (.rotated, false)]]

/-- refresh_apply, refresh.c:134-166, and memtable_free in refresh_end, 174-176. -/
def refresh_apply (i : Nat) : List Code :=
  [mutex_lock, op (.lock i .access) .refresh_apply, op (.swap i) .refresh_apply,
   op (.unlock i .access) .refresh_apply, mutex_unlock, use i .refresh_end [(.rotated, true)]]

/-- refresh_run, refresh.c:201-237. -/
def refresh_run (i id : Nat) (stop : Instr.Stop) : List Code :=
  engine_lock i id .match_ .service ++ [op (.load i) .refresh_begin, use i .refresh_begin [(.state, false)]] ++
    (match stop with
     | .begin => []
     | .merge => refresh_merge i
     | .fin => refresh_merge i ++ refresh_apply i
     | .never => refresh_merge i ++ refresh_apply i ++ [op (.free i) .refresh_end]) ++
    engine_unlock i .service

/-- engine_drop_reference, op.c:239-288. -/
def engine_drop_reference (id : Nat) (empty : Bool) : List Code :=
  [op .exclusive .engine_drop_reference, op (.remove id empty) .engine_drop_reference,
   op .release .engine_drop_reference, op .freeRef .ref_free]

/-- engine_fill, op.c:132-143, for one partition. -/
def engine_fill (i id min max : Nat) : List Code :=
  [op .shared .engine_lock, mutex_lock, op (.find i id (.create min max)) .engine_lock, mutex_unlock,
   op (.leave i) .engine_lock]

/-- engine_show, engine/engine/engine_show.c:77-114, with stats_add, engine/io/stats.h:41-75. -/
def engine_show : List Code :=
  [op .shared .engine_show, mutex_lock,
   look .engine_show none [(.mapping, false), (.storages, false), (.ref, false), (.part .state, false),
     (.part .index, false), (.part .active, false), (.part .rotated, false)],
   mutex_unlock, op .release .engine_show]

/-- engine_gc, op.c:618-655: the memtables' smallest lsn is atomic. -/
def engine_gc : List Code :=
  [op .shared .engine_gc, mutex_lock, look .engine_gc none [(.mapping, false), (.ref, false)], mutex_unlock,
   op .release .engine_gc]

/-- engine_rebalance_next, op.c:544-576; the partition with `id` is chosen. -/
def engine_rebalance (id : Nat) : List Code :=
  [op .shared .engine_rebalance, mutex_lock,
   look .engine_rebalance (some id) [(.storages, false), (.part .refresh, false), (.part .refresh, true)],
   mutex_unlock, op .release .engine_rebalance]

/-- engine_checkpoint, op.c:596-616. -/
def engine_checkpoint : List Code :=
  [op .exclusive .engine_checkpoint,
   look .engine_checkpoint none [(.mapping, false), (.ref, false), (.part .refresh, false), (.part .active, false),
     (.part .cloud, false), (.part .refresh, true)],
   op .release .engine_checkpoint]

/-- engine_resume, op.c:725-746. -/
def engine_resume : List Code :=
  [op .exclusive .engine_resume,
   look .engine_resume none [(.mapping, false), (.ref, false), (.part .cloud, false), (.part .state, false)],
   op .release .engine_resume]

end Code
end Races
end Verif
