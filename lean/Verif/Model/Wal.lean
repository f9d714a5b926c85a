import Verif.Model.Index

/-! Model of engine/wal: log records (log.h, log_write.h, log_drop.h), log
files (wal_file.h), the list of files (wal_id.h), reading (wal_cursor.c) and
writing (wal.c).  Spinlocks and mutexes make each call atomic. -/
namespace Verif.Wal
open Io

/-- `struct LogWrite`, engine/wal/log_write.h:24-31. -/
structure LogWrite where
  crc : Nat := 0
  lsn : Nat := 0
  type : Nat := 0
  count : Nat := 0
  size : Nat := 0
deriving Repr, DecidableEq

namespace LogWrite

/-- The bytes after the field `crc` (packed). -/
def tailBytes (w : LogWrite) : Bytes := le 8 w.lsn ++ le 1 w.type ++ le 4 w.count ++ le 4 w.size

/-- The 21 bytes of the structure. -/
def bytes (w : LogWrite) : Bytes := le 4 w.crc ++ w.tailBytes

/-- The structure at a pointer. -/
def at_ (bs : Bytes) : Res LogWrite :=
  (getU 4 bs).bind fun (crc, bs) => (getU 8 bs).bind fun (lsn, bs) =>
  (getU 1 bs).bind fun (type, bs) => (getU 4 bs).bind fun (count, bs) =>
  (getU 4 bs).bind fun (size, _) => .ok { crc, lsn, type, count, size }

/-- log_write_seal, log_write.h:71-77; `crcOn` is the setting `wal_crc`. -/
def seal_ (crcOn : Bool) (w : LogWrite) : LogWrite :=
  if crcOn then { w with crc := (Crc.crc32_hw (BitVec.ofNat 32 w.crc) w.tailBytes).toNat } else w

end LogWrite

/-- An event of a batch in its heap page: `seen` are the bytes that follow it in
memory when log_add_event runs, `left` those that follow it when the batch is
written. -/
structure LogEvent where
  event : Event
  seen : Bytes
  left : Bytes
deriving Repr, DecidableEq

/-- `struct Log`, engine/wal/log.h:26-31: `op` is left out, `iov` is the list of
events after the header. -/
structure Log where
  write : LogWrite := {}
  iov : List LogEvent := []
deriving Repr, DecidableEq

namespace Log

/-- log_add and log_add_event, log.h:91-125. -/
def add (crcOn : Bool) (l : Log) (e : LogEvent) : Res Log :=
  let count := l.write.count + 1
  let size := if count = 1 then l.write.size + 21 else l.write.size
  (if crcOn then
    (copyEvent ⟨e.event, e.seen⟩).bind fun bs =>
    Res.ok (Crc.crc32_hw (BitVec.ofNat 32 l.write.crc) bs).toNat
  else .ok l.write.crc).bind fun crc =>
  .ok { write := { l.write with count, crc, size := wrapU32 (size + event_size e.event : Nat) }
        iov := l.iov ++ [e] }

/-- The loop of engine_write over a batch, engine/engine/write.c:83-110, as far
as the log is concerned. -/
def addAll (crcOn : Bool) : Log → List LogEvent → Res Log
  | l, [] => .ok l
  | l, e :: es => (l.add crcOn e).bind fun l => addAll crcOn l es

/-- What the events add to the file: the memory at the time of the write. -/
def body : List LogEvent → Res Bytes
  | [] => .ok []
  | e :: es => (copyEvent ⟨e.event, e.left⟩).bind fun b => (body es).bind fun bs => .ok (b ++ bs)

/-- The bytes wal_write appends for a batch, engine/wal/wal.c:198-218:
the number is assigned, the header sealed, everything written by one
wal_file_writev.  Writing nothing (an empty batch) is an error
(runtime/runtime/vfs.c, writev with no buffers). -/
def record (crcOn : Bool) (l : Log) (lsn : Nat) : Res Bytes :=
  if l.iov = [] then .err "file: writev error" else
  (body l.iov).bind fun bs => .ok ((({ l.write with lsn } : LogWrite).seal_ crcOn).bytes ++ bs)

end Log

/-- The record of a batch. -/
def batch (crcOn : Bool) (lsn : Nat) (es : List LogEvent) : Res Bytes :=
  (Log.addAll crcOn {} es).bind fun l => l.record crcOn lsn

/-- log_drop_init and wal_write_op, engine/wal/log_drop.h:24-37 and
engine/wal/wal.c:220-239: the record of a dropped partition. -/
def dropRecord (crcOn : Bool) (lsn id : Nat) : Bytes :=
  let w : LogWrite :=
    { crc := if crcOn then (Crc.crc32_hw 0#32 (le 8 id)).toNat else 0, lsn, type := 1, count := 0, size := 29 }
  (w.seal_ crcOn).bytes ++ le 8 id

/-- The loop over the events of a record, log_write_first and log_write_next
(log_write.h:53-69), in the buffer the record was read into; `pos` is the offset
of the next event.  `fuel` bounds the number of events. -/
def eventsFrom (bs : Bytes) (size : Nat) : Nat → Nat → Res (List Event)
  | 0, _ => .ub "log_write_next: fuel"
  | fuel + 1, pos =>
    (eventAt (bs.drop pos)).bind fun e =>
    let next := pos + event_size e
    if next ≥ size then .ok [e]
    else (eventsFrom bs size fuel next).bind fun es => .ok (e :: es)

/-- A record as the replay sees it, main/main/main.c:189-200: number, and the
events or the id of a dropped partition. -/
inductive Rec where
  | write (lsn : Nat) (count : Nat) (events : List Event)
  | drop (lsn : Nat) (id : Nat)
deriving Repr, DecidableEq

/-- The number of a record. -/
def Rec.lsn : Rec → Nat
  | .write l _ _ => l
  | .drop l _ => l

/-- The switch of main_replay, main/main/main.c:189-205, on the record in the
buffer. -/
def decode (bs : Bytes) : Res Rec :=
  (LogWrite.at_ bs).bind fun w =>
  if w.type = 0 then
    (eventsFrom bs w.size bs.length 21).bind fun es => .ok (.write w.lsn w.count es)
  else if w.type = 1 then
    (getU 8 (bs.drop 21)).bind fun (id, _) => .ok (.drop w.lsn id)
  else .err "wal: unrecognized operation"

/-- wal_file_eof, engine/wal/wal_file.h:81-85: offset and sum are `uint32_t`. -/
def eof (file : Bytes) (offset size : Nat) : Bool := (offset % 4294967296 + size) % 4294967296 > file.length

/-- wal_file_pread, engine/wal/wal_file.h:87-125: the record at an offset,
`none` at the end of the file.  A header with a size below its own makes the
size of the body negative, and a buffer above `bufLimit` overflows. -/
def pread (crcOn : Bool) (file : Bytes) (offset : Nat) : Res (Option Bytes) :=
  if eof file offset 21 then .ok none else
  (Io.pread file 21 offset).bind fun head =>
  (LogWrite.at_ head).bind fun w =>
  if eof file offset w.size then .ok none
  else if w.size < 21 then .ub "wal_file_pread: negative size"
  else if bufLimit < w.size then .ub "buffer size overflows int"
  else
    (Io.pread file (w.size - 21) (offset + 21)).bind fun data =>
    if crcOn ∧ (Crc.crc32_hw (Crc.crc32_hw 0#32 data) (head.drop 4)).toNat ≠ w.crc then
      .err "wal: crc mismatch"
    else .ok (some (head ++ data))

/-! The list of file ids (`struct WalId`, engine/wal/wal_id.h:18-23). -/

/-- wal_id_add, wal_id.h:40-66: insert before the first id that is not
smaller. -/
def idAdd (id : Nat) : List Nat → List Nat
  | [] => [id]
  | x :: xs => if x < id then x :: idAdd id xs else id :: x :: xs

/-- wal_id_min, wal_id.h:118-130. -/
def idMin (l : List Nat) : Nat :=
  match l with
  | [] => 18446744073709551615
  | x :: _ => x

/-- wal_id_max, wal_id.h:132-144. -/
def idMax (l : List Nat) : Nat :=
  match l.getLast? with
  | none => 18446744073709551615
  | some x => x

/-- The loop of wal_id_find, wal_id.h:168-180. -/
def findLoop (value : Nat) : List Nat → Nat → Nat
  | [], id => id
  | x :: xs, id => if x > value then id else findLoop value xs x

/-- wal_id_find, wal_id.h:165-184. -/
def idFind (l : List Nat) (value : Nat) : Nat := findLoop value l 18446744073709551615

/-- wal_id_next, wal_id.h:186-206. -/
def idNext (l : List Nat) (value : Nat) : Nat :=
  match l with
  | [] => 18446744073709551615
  | x :: xs => if x > value then x else idNext xs value

/-- The loop of wal_id_gc_between, wal_id.h:214-221: number of ids removed. -/
def gcCount (id : Nat) : List Nat → Nat
  | _ :: y :: l => if id ≥ y then gcCount id (y :: l) + 1 else 0
  | _ => 0

/-- wal_id_gc_between, wal_id.h:208-248: the ids removed and the new list. -/
def gcBetween (l : List Nat) (id : Nat) : List Nat × List Nat :=
  (l.take (gcCount id l), l.drop (gcCount id l))

/-! Reading the log. -/

/-- The log directory (the files by id) together with the list of ids of
`struct Wal`. -/
structure Dir where
  list : List Nat
  files : List (Nat × Bytes)
deriving Repr, DecidableEq

namespace Dir

/-- wal_file_open, engine/wal/wal_file.h:39-47. -/
def open_ (d : Dir) (id : Nat) : Res Bytes :=
  match d.files.find? (fun f => f.1 == id) with
  | none => .err "file: open error"
  | some f => .ok f.2

end Dir

/-- `struct WalCursor`, engine/wal/wal_cursor.h:18-24.  The open file is its id
and content (its size is taken at opening). -/
structure Cursor where
  file : Option (Nat × Bytes)
  offset : Nat
  buf : Bytes
deriving Repr, DecidableEq

namespace Cursor

/-- The loop of wal_cursor_next, engine/wal/wal_cursor.c:89-116.  `fuel` bounds
the number of files passed. -/
def next (crcOn : Bool) (d : Dir) : Nat → Cursor → Res (Bool × Cursor)
  | 0, _ => .ub "wal_cursor_next: fuel"
  | fuel + 1, c =>
    match c.file with
    | none => .ok (false, c)
    | some (fid, file) =>
      (pread crcOn file c.offset).bind fun
        | some bs =>
          (LogWrite.at_ bs).bind fun w => .ok (true, { c with offset := c.offset + w.size, buf := bs })
        | none =>
          let id := idNext d.list fid
          if id = 18446744073709551615 then .ok (false, c)
          else (d.open_ id).bind fun f => next crcOn d fuel { c with file := some (id, f), offset := 0 }

/-- The rewind loop of wal_cursor_open, engine/wal/wal_cursor.c:51-62.  `fuel`
bounds the number of records. -/
def rewind (crcOn : Bool) (d : Dir) (lsn : Nat) : Nat → Cursor → Res Cursor
  | 0, _ => .ub "wal_cursor_open: fuel"
  | fuel + 1, c =>
    (next crcOn d (d.list.length + 1) c).bind fun
      | (false, c) => .ok c
      | (true, c) =>
        (LogWrite.at_ c.buf).bind fun w =>
        if w.lsn ≥ lsn then .ok { c with offset := c.offset - w.size }
        else rewind crcOn d lsn fuel c

/-- wal_cursor_open, engine/wal/wal_cursor.c:32-63. -/
def open_ (crcOn : Bool) (d : Dir) (lsn fuel : Nat) : Res Cursor :=
  let id := if lsn = 0 then idMin d.list else idFind d.list lsn
  if id = 18446744073709551615 then .ok ⟨none, 0, []⟩
  else (d.open_ id).bind fun f => rewind crcOn d lsn fuel ⟨some (id, f), 0, []⟩

/-- `while (wal_cursor_next(..)) { wal_cursor_at(..) }` as in main_replay,
main/main/main.c:182-206. -/
def drain (crcOn : Bool) (d : Dir) : Nat → Cursor → Res (List Rec)
  | 0, _ => .ub "main_replay: fuel"
  | fuel + 1, c =>
    (next crcOn d (d.list.length + 1) c).bind fun
      | (false, _) => .ok []
      | (true, c) =>
        (decode c.buf).bind fun r => (drain crcOn d fuel c).bind fun rs => .ok (r :: rs)

end Cursor

/-- Read the log from a number on.  `fuel` bounds the number of records. -/
def readLog (crcOn : Bool) (d : Dir) (lsn fuel : Nat) : Res (List Rec) :=
  (Cursor.open_ crcOn d lsn fuel).bind fun c => Cursor.drain crcOn d fuel c

/-! Writing the log. -/

/-- Write at a position of a file (the position is never past its end). -/
def put (file : Bytes) (pos : Nat) (bs : Bytes) : Bytes := file.take pos ++ bs ++ file.drop (pos + bs.length)

/-- The current file of `struct Wal` (engine/wal/wal.h:18-23, wal_file.h:18-22):
id, position of the file descriptor and `file.size`. -/
structure Current where
  id : Nat
  pos : Nat
  size : Nat
deriving Repr, DecidableEq

/-- `struct Wal` together with the log directory and `config_lsn()`. -/
structure State where
  dir : Dir
  current : Option Current
  lsn : Nat
deriving Repr, DecidableEq

namespace State

/-- wal_write and wal_write_op, engine/wal/wal.c:198-239: the next number is put
into the record, which is written to the current file; the number is used up
after that.  (file_write and file_writev, runtime/runtime/file.h:147-170, add
the size to `file.size`.)  Without a current file `self->current` is NULL. -/
def write (s : State) (record : Nat → Res Bytes) : Res State :=
  (record (s.lsn + 1)).bind fun bs =>
  match s.current with
  | none => .ub "wal_write: no current file"
  | some c =>
    .ok
      { s with
        dir := { s.dir with files := s.dir.files.map fun f => if f.1 = c.id then (f.1, put f.2 c.pos bs) else f }
        current := some { c with pos := c.pos + bs.length, size := c.size + bs.length }
        lsn := s.lsn + 1 }

/-- The process dies when only the first `n` bytes of the record have reached
the file. -/
def tear (s : State) (record : Nat → Res Bytes) (n : Nat) : Res Dir :=
  (record (s.lsn + 1)).bind fun bs =>
  match s.current with
  | none => .ub "wal_write: no current file"
  | some c =>
    .ok { s.dir with files := s.dir.files.map fun f => if f.1 = c.id then (f.1, put f.2 c.pos (bs.take n)) else f }

/-- wal_write or wal_write_op that fails when `n` bytes of the record have been
written: wal_file_writev and wal_file_write, engine/wal/wal_file.h:65-79, throw,
config_lsn_set (wal.c:213,234) is not reached and nothing is taken back.  With
all bytes written it is file_sync that failed, and `file.size` has been
advanced; otherwise file_writev or file_write threw before that
(runtime/runtime/file.h:185-218; the size of a complete group of IOV_MAX buffers
is left out). -/
def fail (s : State) (record : Nat → Res Bytes) (n : Nat) : Res State :=
  (record (s.lsn + 1)).bind fun bs =>
  match s.current with
  | none => .ub "wal_write: no current file"
  | some c =>
    .ok
      { s with
        dir := { s.dir with files := s.dir.files.map fun f => if f.1 = c.id then (f.1, put f.2 c.pos (bs.take n)) else f }
        current := some { c with
          pos := c.pos + (bs.take n).length
          size := if bs.length ≤ n then c.size + bs.length else c.size } }

/-- wal_rotate, engine/wal/wal.c:45-97.  file_create (runtime/runtime/file.h:
82-87) keeps the content of a file that already exists. -/
def rotate (s : State) (wm : Nat) : State :=
  if s.current.any (fun c => c.size ≤ wm) then s
  else
    { s with
      dir := { list := idAdd (s.lsn + 1) s.dir.list
               files := if s.dir.files.any (·.1 == s.lsn + 1) then s.dir.files else s.dir.files ++ [(s.lsn + 1, [])] }
      current := some ⟨s.lsn + 1, 0, 0⟩ }

end State

/-- wal_recover, engine/wal/wal.c:147-167: the ids of the files of the
directory, in the order in which they are found. -/
def listFiles (files : List (Nat × Bytes)) : List Nat := files.foldl (fun l f => idAdd f.1 l) []

/-- wal_open, engine/wal/wal.c:169-196; `lsn` is `config_lsn()`. -/
def openLog (files : List (Nat × Bytes)) (lsn : Nat) : Res State :=
  let list := listFiles files
  let d : Dir := { list := list, files := files }
  if list.isEmpty then .ok (State.rotate { dir := d, current := none, lsn := lsn } 0)
  else
    (d.open_ (idMax list)).bind fun f =>
    .ok { dir := d, current := some ⟨idMax list, f.length, f.length⟩, lsn := lsn }

/-- What replaying does to `config_lsn()`: engine_write_replay
(engine/engine/write.c:192) follows the number of a batch; a drop does not
(main/main/main.c:193-198). -/
def followLsn (lsn : Nat) : List Rec → Nat
  | [] => lsn
  | .write l _ _ :: rs => followLsn (if l > lsn then l else lsn) rs
  | .drop _ _ :: rs => followLsn lsn rs

/-- wal_open and main_replay, main/main/main.c:174-209,240-244, as far as the
log is concerned: the recovered records and the state.  (Replaying a drop of a
partition that exists appends to the log; that is left out here.)  `fuel`
bounds the number of records. -/
def restart (crcOn : Bool) (files : List (Nat × Bytes)) (lsn fuel : Nat) : Res (List Rec × State) :=
  (openLog files lsn).bind fun s =>
  (readLog crcOn s.dir 0 fuel).bind fun rs => .ok (rs, { s with lsn := followLsn s.lsn rs })

end Verif.Wal
