import Verif.Model.Wal
import Verif.Model.Ranges

/-!
Model of the database as a whole: writes, the log, refreshes with their file
steps, log rotation and garbage collection, drops and restarts
(engine/engine/write.c, op.c, refresh.c, engine_recover.c, engine/io/merger.c,
main/main/main.c).

One storage, no cloud.  Tables and files are maps from keys to events here; how
they are laid out is the subject of the other models (memtable pages C05-C08,
merging C13, files C15-C19, log records C20, C22, C23).  Steps of different
threads are interleaved, one writing batch at a time.  Log files are lists of
records (no torn records, C23).
-/
namespace Verif.Dur

/-- The contents of a memory table or file: events, found by their pair of id
and key. -/
abbrev Table := List Event

/-- The event stored for a pair. -/
def tget (t : Table) (k : Nat × List UInt8) : Option Event := t.find? fun e => e.pair == k

/-- memtable_set, engine/io/memtable.c: insert or replace (C07). -/
def tset (t : Table) (e : Event) : Table := e :: t.filter fun x => x.pair != e.pair

/-- merger_write, engine/io/merger.c:51-75: the merge iterator returns the
newest version of every key, the memory table first (C13); deletes are left
out. -/
def mergeTables (mem file : Table) : Table :=
  (mem ++ file).filter fun e => tget (mem ++ file) e.pair == some e && !e.isDelete

/-- `struct Memtable`, engine/io/memtable.h:27-40: contents, `lsn_min`,
`lsn_max`. -/
structure Mem where
  tbl : Table := []
  lsnMin : Nat := 18446744073709551615
  lsnMax : Nat := 0
deriving Repr, DecidableEq

/-- memtable_follow, engine/io/memtable.c:348-356. -/
def Mem.follow (m : Mem) (lsn : Nat) : Mem :=
  { m with
    lsnMin := if lsn < m.lsnMin then lsn else m.lsnMin
    lsnMax := if lsn > m.lsnMax then lsn else m.lsnMax }

/-- A partition file: `index.lsn` and the events. -/
structure PFile where
  lsn : Nat
  tbl : Table
deriving Repr, DecidableEq

/-- How far a refresh of a partition has come (engine/engine/refresh.c): after
refresh_begin, after refresh_merge, after refresh_apply, and after the three
steps of refresh_end. -/
inductive Phase where
  | idle
  | begun
  | merged (f : PFile)
  | applied (f : PFile)
  | completed (f : PFile)
  | deleted (f : PFile)
deriving Repr, DecidableEq

/-- `struct Part`, engine/io/part.h:18-35, in memory: the open file (`none` for
ID_NONE), the current memory table and the other one. -/
structure Part where
  file : Option PFile := none
  act : Mem := {}
  prev : Mem := {}
  phase : Phase := .idle
deriving Repr, DecidableEq

/-- The files of a partition on disk: `<min>`, whether there is a
`<min>.incomplete`, and `<min>.complete` (cloud/cloud/id.h:33-80). -/
structure Files where
  id_ : Option PFile := none
  incomplete : Bool := false
  complete : Option PFile := none
deriving Repr, DecidableEq

/-- A partition in memory and on disk. -/
structure Slot where
  part : Option Part := none
  files : Files := {}
deriving Repr, DecidableEq

/-- The database.  `slots` is by partition minimum, `known` lists the
partitions that exist in memory or on disk; `cur` is the id of the current log
file; `pending` is a batch between wal_write and engine_commit. -/
structure Db where
  slots : Nat → Slot
  known : List Nat
  wal : List (Nat × List Wal.Rec)
  cur : Nat
  lsn : Nat
  pending : Option (Nat × List Event)

namespace Db

def set (db : Db) (p : Nat) (s : Slot) : Db :=
  { db with
    slots := fun q => if q = p then s else db.slots q
    known := if p ∈ db.known then db.known else p :: db.known }

/-- Append a record to the current log file (wal_write and wal_write_op,
engine/wal/wal.c:198-239). -/
def append (db : Db) (r : Wal.Rec) : Db :=
  { db with
    wal := db.wal.map fun f => if f.1 = db.cur then (f.1, f.2 ++ [r]) else f
    lsn := db.lsn + 1 }

end Db

/-- The partition of an id (config_interval_of, runtime/config/global.h:61-65;
partitions all have the same interval here, C04). -/
def partOf (iv : Nat) (id : Nat) : Nat := Ranges.intervalOf iv id

/-- One event of engine_write, engine/engine/write.c:86-109: find or create the
partition, set the event in its current memory table. -/
def putEvent (iv : Nat) (db : Db) (e : Event) : Db :=
  let p := partOf iv e.id
  let s := db.slots p
  let part : Part := match s.part with
    | none => {}
    | some x => x
  db.set p { s with part := some { part with act := { part.act with tbl := tset part.act.tbl e } } }

/-- engine_write up to and including wal_write, engine/engine/write.c:74-120.
Nothing happens while another batch is being written. -/
def log (iv : Nat) (db : Db) (es : List Event) : Db :=
  match db.pending with
  | some _ => db
  | none =>
    let db1 := es.foldl (putEvent iv) db
    { db1.append (.write (db.lsn + 1) es.length es) with pending := some (db.lsn + 1, es) }

/-- memtable_follow for one event of engine_commit. -/
def followEvent (iv : Nat) (lsn : Nat) (db : Db) (e : Event) : Db :=
  let p := partOf iv e.id
  let s := db.slots p
  match s.part with
  | none => db
  | some part => db.set p { s with part := some { part with act := part.act.follow lsn } }

/-- engine_commit, engine/engine/write.c:45-72. -/
def commit (iv : Nat) (db : Db) : Db :=
  match db.pending with
  | none => db
  | some (lsn, es) => { es.foldl (followEvent iv lsn) db with pending := none }

/-- wal_rotate, engine/wal/wal.c:45-97, above the watermark: only a file that
is not empty is rotated.  The case that the new file already exists is left out
(`err`). -/
def rotate (db : Db) : Res Db :=
  if db.wal.any (fun f => f.1 == db.cur && f.2.isEmpty) then .ok db
  else if db.wal.any (fun f => f.1 == db.lsn + 1) then .err "not modelled: the new log file exists"
  else
    .ok
      { db with
        wal := db.wal.takeWhile (fun f => f.1 < db.lsn + 1) ++ [(db.lsn + 1, [])] ++
          db.wal.dropWhile (fun f => f.1 < db.lsn + 1)
        cur := db.lsn + 1 }

/-- The smallest `lsn_min` of all memory tables, engine_gc,
engine/engine/op.c:628-646. -/
def lsnMin (db : Db) : Nat :=
  db.known.foldl (fun m p =>
    match (db.slots p).part with
    | none => m
    | some x =>
      let m := if x.act.lsnMin < m then x.act.lsnMin else m
      if x.prev.lsnMin < m then x.prev.lsnMin else m) 18446744073709551615

/-- engine_gc and wal_gc, engine/engine/op.c:618-652, engine/wal/wal.c:99-125. -/
def gc (db : Db) : Db := { db with wal := db.wal.drop (Wal.gcCount (lsnMin db) (db.wal.map (·.1))) }

/-- Is the partition locked by the batch that is being written? -/
def held (iv : Nat) (db : Db) (p : Nat) : Bool :=
  match db.pending with
  | none => false
  | some (_, es) => es.any fun e => partOf iv e.id == p

/-- Change a partition that exists. -/
def onPart (db : Db) (p : Nat) (f : Part → Files → Option (Part × Files)) : Db :=
  let s := db.slots p
  match s.part with
  | none => db
  | some part =>
    match f part s.files with
    | none => db
    | some (part, files) => db.set p { part := some part, files := files }

/-- refresh_begin, engine/engine/refresh.c:55-118: the memory tables change
places (part_memtable_rotate, engine/io/part.h:98-109). -/
def begin_ (iv : Nat) (db : Db) (p : Nat) : Db :=
  if held iv db p then db else
  onPart db p fun x fs =>
    if x.phase = .idle then some ({ x with act := x.prev, prev := x.act, phase := .begun }, fs) else none

/-- The new file, merger_write, engine/io/merger.c:51-96. -/
def mergeFile (x : Part) : PFile :=
  match x.file with
  | none => { lsn := x.prev.lsnMax, tbl := mergeTables x.prev.tbl [] }
  | some f => { lsn := if f.lsn > x.prev.lsnMax then f.lsn else x.prev.lsnMax, tbl := mergeTables x.prev.tbl f.tbl }

/-- refresh_merge, engine/engine/refresh.c:120-132. -/
def merge (db : Db) (p : Nat) : Db :=
  onPart db p fun x fs =>
    if x.phase = .begun then some ({ x with phase := .merged (mergeFile x) }, { fs with incomplete := true }) else none

/-- refresh_merge fails: refresh_run ends (engine/engine/refresh.c:219-237); the
memory tables stay where they are and the incomplete file stays. -/
def fail (db : Db) (p : Nat) : Db :=
  onPart db p fun x fs =>
    if x.phase = .begun then some ({ x with phase := .idle }, { fs with incomplete := true }) else none

/-- refresh_apply, engine/engine/refresh.c:134-166, and memtable_free of
refresh_end, refresh.c:174-176: the partition now has the new file and an empty
second memory table. -/
def apply_ (iv : Nat) (db : Db) (p : Nat) : Db :=
  if held iv db p then db else
  onPart db p fun x fs =>
    match x.phase with
    | .merged f => some ({ file := some f, act := x.act, prev := {}, phase := .applied f }, fs)
    | _ => none

/-- Step 1 of refresh_end, refresh.c:181-182. -/
def complete (db : Db) (p : Nat) : Db :=
  onPart db p fun x fs =>
    match x.phase with
    | .applied f => some ({ x with phase := .completed f }, { fs with incomplete := false, complete := some f })
    | _ => none

/-- Step 2 of refresh_end, refresh.c:187-191. -/
def delete (db : Db) (p : Nat) : Db :=
  onPart db p fun x fs =>
    match x.phase with
    | .completed f => some ({ x with phase := .deleted f }, { fs with id_ := none })
    | _ => none

/-- Step 3 of refresh_end, refresh.c:196-198. -/
def finish (db : Db) (p : Nat) : Db :=
  onPart db p fun x fs =>
    match x.phase with
    | .deleted f => some ({ x with phase := .idle }, { fs with id_ := some f, complete := none })
    | _ => none

/-- refresh_run, engine/engine/refresh.c:201-237, without interruption. -/
def refresh (iv : Nat) (db : Db) (p : Nat) : Db :=
  finish (delete (complete (apply_ iv (merge (begin_ iv db p) p) p) p) p) p

/-- engine_checkpoint, engine/engine/op.c:596-616, and the refreshes it
schedules (ACTION_REFRESH, op.c:698-701), one after the other: every partition
whose current memory table is in use.  The flag `part->refresh`, set while a
refresh is scheduled, is left out (C51). -/
def checkpoint (iv : Nat) (db : Db) : Db :=
  db.known.foldl (fun db p =>
    match (db.slots p).part with
    | none => db
    | some x => if x.act.tbl = [] then db else refresh iv db p) db

/-- engine_drop_file, engine/engine/op.c:164-237: the file is deleted and the
partition left without one; its memory tables stay. -/
def dropFile (iv : Nat) (db : Db) (p : Nat) : Db :=
  if held iv db p then db else
  onPart db p fun x fs =>
    if x.phase = .idle then some ({ x with file := none }, { fs with id_ := none }) else none

/-- engine_drop_reference, engine/engine/op.c:239-288, for a partition without
file: it is removed and a drop record is logged. -/
def dropRef (iv : Nat) (db : Db) (p : Nat) : Db :=
  if held iv db p then db else
  match (db.slots p).part with
  | none => db
  | some x =>
    if x.phase = .idle ∧ x.file = none then
      (db.set p { part := none, files := (db.slots p).files }).append (.drop (db.lsn + 1) p)
    else db

/-! Restart. -/

/-- engine_recover_validate, engine/engine/engine_recover.c:115-200, for one
partition on one storage, and part_open of what remains: the file that is used
and the files that remain. -/
def recover (fs : Files) : Res (Option PFile) :=
  match fs.id_, fs.incomplete, fs.complete with
  | none, false, none => .ok none
  | some f, false, none => .ok (some f)
  | none, true, none => .ok none
  | some f, true, none => .ok (some f)
  | some f, false, some _ => .ok (some f)
  | none, false, some f => .ok (some f)
  | _, true, some _ => .err "partition has unexpected state"

/-- engine_recover for one partition, engine_recover.c:218-250. -/
def recoverSlot (s : Slot) : Res Slot :=
  (recover s.files).bind fun
    | none => .ok {}
    | some f => .ok { part := some { file := some f }, files := { id_ := some f } }

/-- engine_recover for all partitions: config_lsn_follow(index.lsn) for every
file. -/
def recoverAll (db : Db) : List Nat → Res Db
  | [] => .ok { db with lsn := 0, pending := none }
  | p :: ps =>
    (recoverAll db ps).bind fun db' =>
    (recoverSlot (db.slots p)).bind fun s =>
    let db2 := db'.set p s
    .ok
      (match s.part with
      | some { file := some f, .. } => { db2 with lsn := if f.lsn > db2.lsn then f.lsn else db2.lsn }
      | _ => db2)

/-- One event of engine_write_replay, engine/engine/write.c:146-181: skipped
when the partition file is not older than the record. -/
def replayEvent (iv : Nat) (lsn : Nat) (db : Db) (e : Event) : Db :=
  let p := partOf iv e.id
  let s := db.slots p
  let part : Part := match s.part with
    | none => {}
    | some x => x
  if part.file.any (fun f => f.lsn ≥ lsn) then db
  else
    db.set p
      { s with part := some { part with act := ({ part.act with tbl := tset part.act.tbl e }).follow lsn } }

/-- One record of main_replay, main/main/main.c:186-203.  A drop is executed
again, with engine_drop, which logs it again. -/
def replayRec (iv : Nat) (db : Db) : Wal.Rec → Db
  | .write l _ es =>
    let db1 := es.foldl (replayEvent iv l) db
    { db1 with lsn := if l > db1.lsn then l else db1.lsn }
  | .drop _ p => dropRef iv (dropFile iv db p) p

/-- main_replay, main/main/main.c:174-209: the files one after the other.  A file
is read up to the size it has when it is opened, so what is appended to the last
file before is read as well. -/
def replayFrom (iv : Nat) : Nat → Nat → Db → Db
  | 0, _, db => db
  | n + 1, i, db =>
    match db.wal[i]? with
    | none => db
    | some f => replayFrom iv n (i + 1) (f.2.foldl (replayRec iv) db)

/-- main_start after the process died, main/main/main.c:233-244: engine_open,
wal_open, main_replay.  What was only in memory is gone. -/
def restart (iv : Nat) (db : Db) : Res Db :=
  (recoverAll db db.known).bind fun db1 =>
  match db1.wal.getLast? with
  | none => .ok { db1 with wal := [(db1.lsn + 1, [])], cur := db1.lsn + 1 }
  | some f => .ok (replayFrom iv db1.wal.length 0 { db1 with cur := f.1 })

/-- A new database. -/
def init : Db := { slots := fun _ => {}, known := [], wal := [(1, [])], cur := 1, lsn := 0, pending := none }

/-! Histories. -/

/-- What can happen. -/
inductive Op where
  | log (es : List Event)
  | commit
  | rotate
  | gc
  | begin_ (p : Nat)
  | merge (p : Nat)
  | fail (p : Nat)
  | apply_ (p : Nat)
  | complete (p : Nat)
  | delete (p : Nat)
  | finish (p : Nat)
  | dropFile (p : Nat)
  | dropRef (p : Nat)
  | crash
deriving Repr, DecidableEq

/-- One step.  `crash` is the death of the process and the restart. -/
def step (iv : Nat) (db : Db) : Op → Res Db
  | .log es => .ok (Dur.log iv db es)
  | .commit => .ok (Dur.commit iv db)
  | .rotate => Dur.rotate db
  | .gc => .ok (Dur.gc db)
  | .begin_ p => .ok (Dur.begin_ iv db p)
  | .merge p => .ok (Dur.merge db p)
  | .fail p => .ok (Dur.fail db p)
  | .apply_ p => .ok (Dur.apply_ iv db p)
  | .complete p => .ok (Dur.complete db p)
  | .delete p => .ok (Dur.delete db p)
  | .finish p => .ok (Dur.finish db p)
  | .dropFile p => .ok (Dur.dropFile iv db p)
  | .dropRef p => .ok (Dur.dropRef iv db p)
  | .crash => restart iv db

/-- A history. -/
def run (iv : Nat) (db : Db) : List Op → Res Db
  | [] => .ok db
  | op :: ops => (step iv db op).bind fun db => run iv db ops

/-- What a reader sees for a pair: the current memory table first, then the
other one, then the file (part_cursor_open, engine/io/part_cursor.h:27-55, and
C13); deletes are skipped (engine_cursor_skip_deletes,
engine/engine/engine_cursor.h:112-123). -/
def view (iv : Nat) (db : Db) (k : Nat × List UInt8) : Option Event :=
  match (db.slots (partOf iv k.1)).part with
  | none => none
  | some x =>
    let found := ((tget x.act.tbl k).or (tget x.prev.tbl k)).or
      (match x.file with
      | none => none
      | some f => tget f.tbl k)
    found.filter fun e => !e.isDelete

end Verif.Dur
