import Verif.Model.Cursor
import Verif.Model.Merger
import Verif.Model.Ranges
import Verif.Model.Wal

/-!
The database as a whole, in the bytes of its files: the partition index
(Model/Mapping.lean), the memory tables (Model/Memtable.lean), the partition
files as the writer leaves them and part_open finds them (Model/Writer.lean), the
refresh with its merge (Model/Merger.lean), the log as it lies on disk
(Model/Wal.lean), restart, and the cursor of the application
(Model/Cursor.lean).

One storage, without cloud; partitions come only from writes and are not
dropped.  A call that waits for a lock is a step that does nothing.  Batches may
fail, at an event or in wal_write, and refreshes in refresh_merge; one that fails in
refresh_end stays where it is and is not followed by another of its partition.
Other space and I/O errors are left out.
-/
namespace Verif.Whole
open Io
open Cursor (CPart)

/-- What a database is opened with: codecs, the result of memcmp, the setting
`wal_crc`, the storage (cloud/cloud/source.h:18-34) and `interval`
(runtime/config/config.h). -/
structure Env where
  cs : Codecs
  mc : MemCmp
  crcOn : Bool
  src : WriterSource
  iv : Nat

/-- The files of a partition, by their state in the name: `<min>`,
`<min>.incomplete`, `<min>.complete` (cloud/cloud/id.h:33-80). -/
structure Files where
  id_ : Option Bytes := none
  incomplete : Option Bytes := none
  complete : Option Bytes := none

/-- How far the refresh of a partition has come (refresh_run,
engine/engine/refresh.c:201-237): after refresh_begin, after refresh_merge with
the new partition, after refresh_apply, after the three steps of refresh_end;
`failed` after an error in refresh_merge, when the locks are given back and both
tables are as refresh_begin left them. -/
inductive Phase where
  | idle
  | begun
  | merged (f : PartFile)
  | applied
  | completed
  | deleted
  | failed

/-- `struct Engine` (engine/engine/engine.h:18-28), the refreshes under way, the
storage directory, the log and the batch between wal_write and engine_commit
(its number and its events).  `phase` and `disk` are by the minimum of the
partition; `names` lists the minimums for which there may be files, in the order
in which readdir finds them. -/
structure Db where
  map : Mapping CPart
  phase : Nat → Phase
  disk : Nat → Files
  names : List Nat
  wal : Wal.State
  pending : Option (Nat × List Event)

/-- part_allocate, engine/io/part.c:21-41. -/
def newPart : CPart := ⟨Memtable.init 512 508, Memtable.init 512 508, none⟩

/-- Change the object a slice of the index is embedded in. -/
def setAt (m : Mapping CPart) (x : Rb.Loc (Slice CPart)) (c : CPart) : Mapping CPart :=
  { m with tree := ({ x with v := { x.v with val := c } } : Rb.Loc (Slice CPart)).tree }

/-- engine_lock without creation, engine/engine/engine.c:129-137. -/
def find (m : Mapping CPart) (id : Nat) : Res (Option (Rb.Loc (Slice CPart))) :=
  match m.last with
  | some h => if Mapping.sliceIn h.v id then .ok (some h) else m.match id
  | none => m.match id

/-- engine_create for every gap, engine/engine/op.c:24-66 and 123-127. -/
def createAll : Mapping CPart → List (Nat × Nat) → Res (Mapping CPart)
  | m, [] => .ok m
  | m, (min, max) :: gs => (m.add ⟨min, max, newPart⟩).bind fun m => createAll m gs

/-- engine_fill_nolock, engine/engine/op.c:68-130. -/
def fill (m : Mapping CPart) (min max : Nat) : Res (Mapping CPart) :=
  if min > max then .err "fill: invalid partition interval"
  else if m.count = 0 then m.add ⟨min, max, newPart⟩
  else
    (m.seek min).bind fun s =>
    (Ranges.gaps (m.count + 1) (some s) min max).bind fun gs => createAll m gs

/-- engine_lock with creation, engine/engine/engine.c:127-157: the index and the
slice found. -/
def lock (iv : Nat) (m : Mapping CPart) (id : Nat) : Res (Mapping CPart × Rb.Loc (Slice CPart)) :=
  (find m id).bind fun
    | some x => .ok (m, x)
    | none =>
      let min := Ranges.intervalOf iv id
      let max := wrapU64 (wrapU64 ((min : Int) + iv) - 1)
      (fill m min max).bind fun m =>
      (m.match id).bind fun
        | some x => .ok (m, x)
        | none => .abort "engine_lock: slice"

/-! Writing. -/

/-- One event of engine_write, engine/engine/write.c:83-109, and the event it
replaces (`op->prev`). -/
def putPrev (env : Env) (w : Db) (e : Event) : Res (Db × Option Event) :=
  (lock env.iv w.map e.id).bind fun (m, x) =>
  (Memtable.set env.mc true x.v.val.act e).bind fun (t, prev) =>
  .ok ({ w with map := setAt m x { x.v.val with act := t } }, prev)

def putEvent (env : Env) (w : Db) (e : Event) : Res Db := (putPrev env w e).bind fun (w, _) => .ok w

/-- The loop of engine_write, engine/engine/write.c:83-109. -/
def putAll (env : Env) : Db → List Event → Res Db
  | w, [] => .ok w
  | w, e :: es => (putEvent env w e).bind fun w => putAll env w es

/-- engine_write up to and including wal_write, engine/engine/write.c:74-127, with
the log on (setting `wal`).  Another batch waits until this one is committed. -/
def log (env : Env) (w : Db) (es : List Wal.LogEvent) : Res Db :=
  match w.pending with
  | some _ => .ok w
  | none =>
    (putAll env w (es.map (·.event))).bind fun w =>
    (w.wal.write fun l => Wal.batch env.crcOn l es).bind fun s =>
    .ok { w with wal := s, pending := some (s.lsn, es.map (·.event)) }

/-- memtable_follow for one event of engine_commit, engine/engine/write.c:52-56;
`pos->ref` is found again by the id (partitions stay). -/
def followEvent (lsn : Nat) (w : Db) (e : Event) : Res Db :=
  (find w.map e.id).bind fun
    | none => .ub "engine_commit: ref"
    | some x => .ok { w with map := setAt w.map x { x.v.val with act := x.v.val.act.follow lsn } }

/-- The loop of engine_commit, engine/engine/write.c:48-69. -/
def followAll (lsn : Nat) : Db → List Event → Res Db
  | w, [] => .ok w
  | w, e :: es => (followEvent lsn w e).bind fun w => followAll lsn w es

/-- engine_commit, engine/engine/write.c:45-72 (scheduling a refresh is left
out: a refresh may start at any time). -/
def commit (w : Db) : Res Db :=
  match w.pending with
  | none => .ok w
  | some (lsn, es) => (followAll lsn w es).bind fun w => .ok { w with pending := none }

/-- One step of engine_rollback, engine/engine/write.c:31-39: memtable_set of the
event that was replaced, or memtable_unset; `pos->ref` is found again by the id. -/
def undo (env : Env) (w : Db) (e : Event) (prev : Option Event) : Res Db :=
  (find w.map e.id).bind fun
    | none => .ub "engine_rollback: ref"
    | some x =>
      match prev with
      | some p =>
        (Memtable.set env.mc true x.v.val.act p).bind fun (t, _) =>
        .ok { w with map := setAt w.map x { x.v.val with act := t } }
      | none =>
        (Memtable.unset env.mc x.v.val.act e).bind fun t =>
        .ok { w with map := setAt w.map x { x.v.val with act := t } }

/-- The loop of engine_write (engine/engine/write.c:83-109) and the one of
engine_rollback (write.c:24-43), which goes back from the last event to the
first. -/
def putBack (env : Env) : Db → List Event → Res Db
  | w, [] => .ok w
  | w, e :: es =>
    (putPrev env w e).bind fun (w, prev) =>
    (putBack env w es).bind fun w => undo env w e prev

/-- engine_write that fails before wal_write when the events `es` are in the
tables (engine/engine/write.c:80-134): the key of the next one is too long, or its
partition cannot be locked, or error_injection.  engine_rollback of an empty log
reads before its start (C09). -/
def reject (env : Env) (w : Db) (es : List Event) : Res Db :=
  match w.pending with
  | some _ => .ok w
  | none => if es = [] then .ub "engine_rollback: log_last of an empty log" else putBack env w es

/-- engine_write in which wal_write fails when `n` bytes of the record have been
written (engine/engine/write.c:80-134, Wal.State.fail). -/
def fault (env : Env) (w : Db) (es : List Wal.LogEvent) (n : Nat) : Res Db :=
  match w.pending with
  | some _ => .ok w
  | none =>
    (w.wal.fail (fun l => Wal.batch env.crcOn l es) n).bind fun s =>
    (putBack env w (es.map (·.event))).bind fun w => .ok { w with wal := s }

/-! The log files. -/

/-- The loop of engine_gc, engine/engine/op.c:632-646.  `fuel` bounds the number
of slices. -/
def lsnMin : Nat → Option (Rb.Loc (Slice CPart)) → Nat → Res Nat
  | _, none, m => .ok m
  | 0, some _, _ => .ub "engine_gc: fuel"
  | n + 1, some x, m =>
    let m := if x.v.val.act.lsnMin < m then x.v.val.act.lsnMin else m
    let m := if x.v.val.prev.lsnMin < m then x.v.val.prev.lsnMin else m
    lsnMin n (Rb.next x) m

/-- wal_gc, engine/wal/wal.c:99-125. -/
def walGc (s : Wal.State) (min : Nat) : Wal.State :=
  { s with dir :=
    { list := (Wal.gcBetween s.dir.list min).2
      files := s.dir.files.filter fun f => !(Wal.gcBetween s.dir.list min).1.contains f.1 } }

/-- engine_gc, engine/engine/op.c:618-652. -/
def gc (w : Db) : Res Db :=
  (lsnMin w.map.count w.map.first 18446744073709551615).bind fun m => .ok { w with wal := walGc w.wal m }

/-! Refresh. -/

/-- The partition is locked by the batch that is being written (LOCK_ACCESS,
engine/engine/ref.h). -/
def held (w : Db) (s : Slice CPart) : Bool := w.pending.any fun b => b.2.any fun e => Mapping.sliceIn s e.id

/-- Change the partition that covers an id, its refresh and its files; nothing
happens when there is none (`if_exists`) or when the step is not due. -/
def onPart (w : Db) (id : Nat) (f : Slice CPart → Phase → Files → Res (Option (CPart × Phase × Files))) : Res Db :=
  (find w.map id).bind fun
    | none => .ok w
    | some x =>
      (f x.v (w.phase x.v.min) (w.disk x.v.min)).bind fun
        | none => .ok w
        | some (c, ph, fs) =>
          .ok
            { w with
              map := setAt w.map x c
              phase := fun q => if q = x.v.min then ph else w.phase q
              disk := fun q => if q = x.v.min then fs else w.disk q
              names := if x.v.min ∈ w.names then w.names else w.names ++ [x.v.min] }

/-- refresh_begin, engine/engine/refresh.c:55-118: part_memtable_rotate,
engine/io/part.h:98-109.  After a refresh that failed it is the same. -/
def begin_ (w : Db) (id : Nat) : Res Db :=
  onPart w id fun s ph fs =>
    match ph with
    | .idle | .failed => if held w s then .ok none else .ok (some ({ s.val with act := s.val.prev, prev := s.val.act }, .begun, fs))
    | _ => .ok none

/-- The partition file that part_iterator_open reads in merger_execute,
engine/io/merger.c:107-109: the index of a partition without file is zero. -/
def originOf (c : CPart) : PartFile :=
  match c.file with
  | some f => f
  | none => ⟨[], {}, []⟩

/-- The header values of merger_write, engine/io/merger.c:78-91, and the times of
merger_execute, merger.c:123-124. -/
def stopArg (s : Slice CPart) (tc tr : Nat) : IndexWriter.StopArg :=
  { id_min := s.min
    id_max := s.max
    refreshes :=
      match s.val.file with
      | some f => 1 + f.index.refreshes
      | none => 1
    time_create := tc
    time_refresh := tr
    lsn :=
      match s.val.file with
      | some f => if f.index.lsn > s.val.prev.lsnMax then f.index.lsn else s.val.prev.lsnMax
      | none => s.val.prev.lsnMax
    compression := 0
    encryption := 0 }

/-- Writing a file from its beginning; file_create (runtime/runtime/file.h:82-87)
keeps what was in a file of that name. -/
def over (old : Option Bytes) (new : Bytes) : Bytes :=
  match old with
  | some b => new ++ b.drop new.length
  | none => new

/-- merger_execute, engine/io/merger.c:99-128: the new partition.  `pad` is the
memory behind the events (Model/Region.lean). -/
def mergeFile (env : Env) (s : Slice CPart) (pad : Event → Bytes) (tc tr : Nat) : Res PartFile :=
  (Memtable.iterOpen env.mc s.val.prev none).bind fun (mi, _) =>
  (PartIterator.open_ env.cs env.mc (originOf s.val) none).bind fun (fi, _) =>
  (Merger.execute env.mc (Cursor.fns env.cs env.mc) (s.val.prev.count + (originOf s.val).index.events)
    (.mem s.val.prev mi) (.file fi)).bind fun es =>
  (writeFile env.cs env.src (stopArg s tc tr) (es.map fun e => ⟨e, pad e⟩)).bind fun w =>
  .ok ⟨w.file, w.index_writer.index, w.index_writer.data⟩

/-- refresh_merge, engine/engine/refresh.c:120-132. -/
def merge (env : Env) (w : Db) (id : Nat) (pad : Event → Bytes) (tc tr : Nat) : Res Db :=
  onPart w id fun s ph fs =>
    match ph with
    | .begun =>
      (mergeFile env s pad tc tr).bind fun f =>
      .ok (some (s.val, .merged f, { fs with incomplete := some (over fs.incomplete f.file) }))
    | _ => .ok none

/-- An error in refresh_merge (engine/engine/refresh.c:120-132, for instance a full
disk): refresh_run gives the lock back and throws again (refresh.c:215-236).  What
has been written, if anything, stays in the incomplete file; nothing deletes it
before the next start. -/
def fail (w : Db) (id : Nat) (b : Option Bytes) : Res Db :=
  onPart w id fun s ph fs =>
    match ph with
    | .begun =>
      .ok (some (s.val, .failed,
        match b with
        | some b => { fs with incomplete := some b }
        | none => fs))
    | _ => .ok none

/-- refresh_apply, engine/engine/refresh.c:134-166, and memtable_free of
refresh_end, refresh.c:174-176: the new partition takes over the current table
(memtable_move, engine/io/memtable.c:74-88), its other table is new. -/
def apply_ (w : Db) (id : Nat) : Res Db :=
  onPart w id fun s ph fs =>
    match ph with
    | .merged f => if held w s then .ok none else .ok (some (⟨s.val.act, newPart.prev, some f⟩, .applied, fs))
    | _ => .ok none

/-- Step 1 of refresh_end, refresh.c:181-182 (part_rename, engine/io/part.c:
152-162). -/
def complete (w : Db) (id : Nat) : Res Db :=
  onPart w id fun s ph fs =>
    match ph with
    | .applied =>
      .ok (some (s.val, .completed,
        match fs.incomplete with
        | some b => { fs with incomplete := none, complete := some b }
        | none => fs))
    | _ => .ok none

/-- Step 2 of refresh_end, refresh.c:187-191 (part_delete, engine/io/part.c:
138-150). -/
def delete (w : Db) (id : Nat) : Res Db :=
  onPart w id fun s ph fs =>
    match ph with
    | .completed => .ok (some (s.val, .deleted, { fs with id_ := none }))
    | _ => .ok none

/-- Step 3 of refresh_end, refresh.c:196-198. -/
def finish (w : Db) (id : Nat) : Res Db :=
  onPart w id fun s ph fs =>
    match ph with
    | .deleted =>
      .ok (some (s.val, .idle,
        match fs.complete with
        | some b => { fs with complete := none, id_ := some b }
        | none => fs))
    | _ => .ok none

/-! Start. -/

/-- engine_recover_validate, engine/engine/engine_recover.c:115-200, for one
partition on one storage without cloud: the files that remain. -/
def recoverFiles (fs : Files) : Res Files :=
  match fs.id_, fs.incomplete, fs.complete with
  | none, none, none => .ok {}
  | some b, none, none => .ok { id_ := some b }
  | none, some _, none => .ok {}
  | some b, some _, none => .ok { id_ := some b }
  | some b, none, some _ => .ok { id_ := some b }
  | none, none, some b => .ok { id_ := some b }
  | _, some _, some _ => .err "partition has unexpected state"

/-- What engine_recover changes: the index, the directory, `config_lsn()`. -/
structure Rec where
  map : Mapping CPart
  disk : Nat → Files
  lsn : Nat

/-- engine_recover for one partition, engine/engine/engine_recover.c:218-250 (the
code validates all partitions before it opens the first). -/
def recoverOne (cs : Codecs) (r : Rec) (p : Nat) : Res Rec :=
  (recoverFiles (r.disk p)).bind fun fs =>
  let disk := fun q => if q = p then fs else r.disk q
  match fs.id_ with
  | none => .ok { r with disk := disk }
  | some b =>
    (part_open cs b).bind fun f =>
    (r.map.add ⟨f.index.id_min, f.index.id_max, { newPart with file := some f }⟩).bind fun m =>
    .ok ⟨m, disk, if f.index.lsn > r.lsn then f.index.lsn else r.lsn⟩

/-- engine_recover, engine/engine/engine_recover.c:202-252. -/
def recoverAll (cs : Codecs) : Rec → List Nat → Res Rec
  | r, [] => .ok r
  | r, p :: ps => (recoverOne cs r p).bind fun r => recoverAll cs r ps

/-- One event of engine_write_replay, engine/engine/write.c:149-176; the
memtable_follow of engine_commit (write.c:189) is done at once. -/
def replayEvent (env : Env) (lsn : Nat) (m : Mapping CPart) (e : Event) : Res (Mapping CPart) :=
  (lock env.iv m e.id).bind fun (m, x) =>
  if x.v.val.file.any (fun f => f.index.lsn ≥ lsn) then .ok m
  else
    (Memtable.set env.mc true x.v.val.act e).bind fun (t, _) =>
    .ok (setAt m x { x.v.val with act := t.follow lsn })

/-- The loop of engine_write_replay. -/
def replayEvents (env : Env) (lsn : Nat) : Mapping CPart → List Event → Res (Mapping CPart)
  | m, [] => .ok m
  | m, e :: es => (replayEvent env lsn m e).bind fun m => replayEvents env lsn m es

/-- main_replay, main/main/main.c:174-209, on the records read (Wal.restart). -/
def replay (env : Env) : Mapping CPart → List Wal.Rec → Res (Mapping CPart)
  | m, [] => .ok m
  | m, .write lsn _ es :: rs => (replayEvents env lsn m es).bind fun m => replay env m rs
  | _, .drop _ _ :: _ => .err "not modelled: a dropped partition"

/-- The number of bytes of the log bounds the number of its records. -/
def logBytes (files : List (Nat × Bytes)) : Nat := (files.map fun f => f.2.length).sum

/-- main_start, main/main/main.c:233-244: engine_open, wal_open, main_replay on
what is on disk. -/
def start (env : Env) (disk : Nat → Files) (names : List Nat) (files : List (Nat × Bytes)) : Res Db :=
  (recoverAll env.cs ⟨Mapping.init, disk, 0⟩ names).bind fun r =>
  (Wal.restart env.crcOn files r.lsn (logBytes files + 1)).bind fun (rs, s) =>
  (replay env r.map rs).bind fun m =>
  .ok { map := m, phase := fun _ => .idle, disk := r.disk, names := names, wal := s, pending := none }

/-- A new database: an empty directory is opened. -/
def create (env : Env) : Res Db := start env (fun _ => {}) [] []

/-! Histories. -/

/-- What can happen.  The times and the memory behind the events of a merge are
given. -/
inductive Op where
  | log (es : List Wal.LogEvent)
  | commit
  | rotate (wm : Nat)
  | gc
  | begin_ (id : Nat)
  | merge (id : Nat) (pad : Event → Bytes) (tc tr : Nat)
  | apply_ (id : Nat)
  | complete (id : Nat)
  | delete (id : Nat)
  | finish (id : Nat)
  | crash
  | tear (es : List Wal.LogEvent) (n : Nat)
  | cut (id : Nat) (b : Bytes)
  | reject (es : List Event)
  | fault (es : List Wal.LogEvent) (n : Nat)
  | fail (id : Nat) (b : Option Bytes)

/-- The process dies in wal_write (engine/wal/wal.c:198-218) after `n` bytes of
the record have reached the file, and is started again. -/
def tear (env : Env) (w : Db) (es : List Wal.LogEvent) (n : Nat) : Res Db :=
  match w.pending with
  | some _ => start env w.disk w.names w.wal.dir.files
  | none =>
    (w.wal.tear (fun l => Wal.batch env.crcOn l es) n).bind fun d => start env w.disk w.names d.files

/-- The process dies in refresh_merge (engine/engine/refresh.c:120-132), or in
writer_stop (engine/io/writer.c), with the bytes `b` in the incomplete file, and
is started again. -/
def cut (env : Env) (w : Db) (id : Nat) (b : Bytes) : Res Db :=
  (onPart w id fun s ph fs =>
    match ph with
    | .begun => .ok (some (s.val, .begun, { fs with incomplete := some b }))
    | _ => .ok none).bind fun w => start env w.disk w.names w.wal.dir.files

/-- One step; `crash` is the death of the process and the next start, of which
only the files are left. -/
def step (env : Env) (w : Db) : Op → Res Db
  | .log es => log env w es
  | .commit => commit w
  | .rotate wm => .ok { w with wal := w.wal.rotate wm }
  | .gc => gc w
  | .begin_ id => begin_ w id
  | .merge id pad tc tr => merge env w id pad tc tr
  | .apply_ id => apply_ w id
  | .complete id => complete w id
  | .delete id => delete w id
  | .finish id => finish w id
  | .crash => start env w.disk w.names w.wal.dir.files
  | .tear es n => tear env w es n
  | .cut id b => cut env w id b
  | .reject es => reject env w es
  | .fault es n => fault env w es n
  | .fail id b => fail w id b

/-- A history. -/
def run (env : Env) (w : Db) : List Op → Res Db
  | [] => .ok w
  | op :: ops => (step env w op).bind fun w => run env w ops

/-- The application reads everything with a cursor. -/
def scan (env : Env) (w : Db) (fuel : Nat) : Res (Option (List Event)) :=
  Cursor.scan env.cs env.mc w.map fuel none

/-- The application reads from a key on: monotone_cursor with a key,
main/api/monotone.c:167-210. -/
def scanFrom (env : Env) (w : Db) (fuel : Nat) (k : Event) : Res (Option (List Event)) :=
  Cursor.scan env.cs env.mc w.map fuel (some k)

end Verif.Whole
