import Verif.Model.Writer

/-! One partition and its copies, byte by byte: the file on disk, the cloud file
that holds its index, the object in the cloud, and what the process has in memory
to read them.  Model of engine/io/part.c with the operations of
engine/engine/op.c that move copies, and of what engine_recover makes of them.

The partition has a cloud (part->cloud) and no other storage has files of it.
Files of a refresh (`.complete`) are not part of it: Model/Files.lean has those.
Any call of the system or the cloud may fail, as `Fault` arguments say; what the
cloud delivers is an argument of a download. -/
namespace Verif.Cold
open Io

/-- The files of a partition (cloud/cloud/id.h:34-66), its object in the cloud, and
`struct Part` (engine/io/part.h:18-35).  An open file keeps its bytes when its
name is removed or given to another one: `fd` are the bytes read through it. -/
structure State where
  /-- `<min>` -/
  file : Option Bytes
  /-- `<min>.incomplete` -/
  incomplete : Option Bytes
  /-- `<min>.cloud` -/
  cloudFile : Option Bytes
  /-- `<min>.cloud.incomplete` -/
  cloudIncomplete : Option Bytes
  /-- the object in the cloud -/
  object : Option Bytes
  /-- part->file; `none` is the descriptor -1 -/
  fd : Option Bytes
  /-- descriptors left open that nothing refers to any more -/
  lost : Nat
  /-- part->index -/
  index : Index
  /-- part->index_data -/
  index_data : Bytes
  /-- part_has(ID) -/
  id : Bool
  /-- part_has(ID_CLOUD) -/
  cloud : Bool

/-- The checks of index_open after the footer `bs` of a file of `size` bytes was read
into `index`, engine/io/index_op.c:45-73: the error, if any. -/
def index_check (cloud : Bool) (size : Nat) (bs : Bytes) (index : Index) : Option String :=
  if index.magic ≠ 0x20849615 then some "partition: file is corrupted"
  else if (Crc.crc32_hw 0#32 (bs.drop 4)).toNat ≠ index.crc then some "partition: file index crc mismatch"
  else if size ≠ (if cloud then index.size + 130 else index.size_total) then some "partition: file size mismatch"
  else if index.version > 0 then some "partition: file index format is not compatible"
  else none

/-- How the opening of a file fails: open(2), or pread(2) after `n` bytes. -/
inductive OpenFault where
  | open
  | read (n : Nat)
deriving Repr, DecidableEq

/-- index_open, engine/io/index_op.c:21-74, for part->file and part->index
(part_open, engine/io/part.c:56-65, without reading the index data).  The footer
is read into part->index before it is checked.  file_open (runtime/runtime/file.h:
47-73) does not close what was open. -/
def part_open_file (s : State) (file : Bytes) (fault : Option OpenFault) : Res (State × Option String) :=
  let lost := if s.fd.isSome then s.lost + 1 else s.lost
  if fault = some .open then .ok ({ s with fd := none, lost }, some "file: open error") else
  let s := { s with fd := some file, lost }
  if file.length < 130 then .ok (s, some "partition: file has incorrect size") else
  let bs := file.drop (file.length - 130)
  match fault with
  | some (.read n) =>
    (Index.at_ (bs.take (min n 129) ++ s.index.bytes.drop (min n 129))).bind fun index =>
    .ok ({ s with index }, some "file: pread error")
  | _ =>
    (Index.at_ bs).bind fun index => .ok ({ s with index }, index_check false file.length bs index)

/-- How a download fails: on the way, with some bytes in the incomplete file; at
the rename; when the file is opened. -/
inductive DownFault where
  | transfer (bs : Bytes)
  | rename
  | open (f : OpenFault)
deriving Repr, DecidableEq

/-- engine_download, engine/engine/op.c:325-384, with part_download
(engine/io/part.c:166-178) and s3_download (cloud/s3/s3.c:114-151; mock_download,
cloud/cloud/mock.c:75-114, does the same to the files).  `got` are the bytes that
arrive if there is an object. -/
def download (s : State) (got : Bytes) (fault : Option DownFault) : Res (State × Option String) :=
  if s.id then .ok (s, none)
  else if s.cloud = false then .ok (s, none)
  else match s.object with
  | none => .ok ({ s with incomplete := some [] }, some "s3: not found")
  | some _ =>
    match fault with
    | some (.transfer bs) => .ok ({ s with incomplete := some bs }, some "s3: transfer failed")
    | some .rename => .ok ({ s with incomplete := some got }, some "fs: rename error")
    | some (.open f) => part_open_file { s with file := some got, incomplete := none } got (some f)
    | none =>
      (part_open_file { s with file := some got, incomplete := none } got none).bind fun (s, e) =>
      match e with
      | some e => .ok (s, some e)
      | none => .ok ({ s with id := true }, none)

/-- How an upload fails: when the cloud file is written, with some bytes in it; at
the cloud, which may have stored the object all the same; at the rename. -/
inductive UpFault where
  | create (bs : Bytes)
  | refused
  | answer
  | rename
deriving Repr, DecidableEq

/-- What part_create writes into the incomplete cloud file, engine/io/part.c:98-134:
the index data as it is in the file (index_read with `copy`,
engine/io/index_op.c:139-162) and the header. -/
def cloudDump (file : Bytes) : Res Bytes :=
  (index_open false file).bind fun index =>
  if index.size = 0 then .ok (file.drop (file.length - 130)) else
  if file.length < 130 + index.size then .err "file: pread error" else
  (pread file index.size (file.length - (130 + index.size))).bind fun data =>
  if (Crc.crc32_hw 0#32 data).toNat ≠ index.crc_data then .err "partition: file index data crc mismatch"
  else .ok (data ++ file.drop (file.length - 130))

/-- engine_upload, engine/engine/op.c:394-453, with part_upload
(engine/io/part.c:180-198) and s3_upload (cloud/s3/s3.c:153-176); both open the
file by its name.  The cloud replaces an object by a new one in one step. -/
def upload (s : State) (fault : Option UpFault) : Res (State × Option String) :=
  if s.cloud then .ok (s, none)
  else if s.id = false then .ok (s, some "upload: partition file does not exist locally")
  else
    let s := { s with cloudIncomplete := none }
    match s.file with
    | none => .ok (s, some "file: stat error")
    | some file =>
      match cloudDump file with
      | .err m => .ok (s, some m)
      | .abort m => .abort m
      | .ub m => .ub m
      | .ok dump =>
        match fault with
        | some (.create bs) => .ok ({ s with cloudIncomplete := some bs }, some "file: write error")
        | some .refused => .ok ({ s with cloudIncomplete := some dump }, some "s3: refused")
        | some .answer => .ok ({ s with cloudIncomplete := some dump, object := some file }, some "s3: no answer")
        | some .rename => .ok ({ s with cloudIncomplete := some dump, object := some file }, some "fs: rename error")
        | none => .ok ({ s with cloudFile := some dump, object := some file, cloud := true }, none)

/-- The end of engine_drop_file, engine/engine/op.c:217-225: without any copy the
index is reset. -/
def dropped (s : State) : State :=
  if s.id = false ∧ s.cloud = false then { s with index := {}, index_data := [] } else s

/-- engine_drop_file for the local file, engine/engine/op.c:164-237, with
part_offload (engine/io/part.c:200-211), which closes the file before it removes
it; `fail`: the file cannot be removed. -/
def dropLocal (s : State) (fail : Bool) : State × Option String :=
  if s.id = false then (dropped s, none)
  else if fail ∧ s.file.isSome then ({ s with fd := none }, some "fs: unlink error")
  else (dropped { s with fd := none, file := none, id := false }, none)

/-- How dropping the cloud copy fails: the cloud file cannot be removed; the cloud
refuses; its answer does not arrive. -/
inductive DropFault where
  | unlink
  | refused
  | answer
deriving Repr, DecidableEq

/-- engine_drop_file for the copy in the cloud, engine/engine/op.c:164-237, with
part_offload (engine/io/part.c:200-221). -/
def dropCloud (s : State) (fault : Option DropFault) : State × Option String :=
  if s.cloud = false then (dropped s, none)
  else match fault with
  | some .unlink => if s.cloudFile.isSome then (s, some "fs: unlink error")
    else (dropped { s with object := none, cloud := false }, none)
  | some .refused => ({ s with cloudFile := none }, some "s3: refused")
  | some .answer => ({ s with cloudFile := none, object := none }, some "s3: no answer")
  | none => (dropped { s with cloudFile := none, object := none, cloud := false }, none)

/-- engine_recover_validate, engine/engine/engine_recover.c:109-188, for the files
found: the ones kept, with both incomplete ones removed, or an error.  Without
any complete file there is no partition. -/
def validate (s : State) : Res State :=
  match s.file.isSome, s.incomplete.isSome, s.cloudFile.isSome, s.cloudIncomplete.isSome with
  | true, false, false, false => .ok s
  | true, false, true, false => .ok s
  | false, false, true, false => .ok s
  | true, true, false, false => .ok { s with incomplete := none }
  | false, true, true, false => .ok { s with incomplete := none }
  | true, false, false, true => .ok { s with cloudIncomplete := none }
  | false, false, false, false => .err "no partition"
  | false, true, false, false => .err "no partition"
  | _, _, _, _ => .err "partition has unexpected state"

/-- The process ends, and engine_recover (engine/engine/engine_recover.c:190-250)
opens what is there: part_open, engine/io/part.c:54-81. -/
def restart (cs : Codecs) (s : State) : Res State :=
  (validate s).bind fun s =>
  match s.file, s.cloudFile with
  | some file, c =>
    (index_open false file).bind fun index =>
    (index_read cs file index).bind fun index_data =>
    .ok { s with fd := some file, lost := 0, index, index_data, id := true, cloud := c.isSome }
  | none, some c =>
    (index_open true c).bind fun index =>
    (index_read cs c index).bind fun index_data =>
    .ok { s with fd := none, lost := 0, index, index_data, id := false, cloud := true }
  | none, none => .abort "no copy"

/-- What a reader reads from (reader_execute, engine/io/reader.h:80-108): part->file,
whose bytes cannot be read when it is closed, or the object.  Reading from the cloud
gives the bytes of the object (C62).  The code finds out when it reads a region, so
not for a partition without any. -/
def source (s : State) : Res Bytes :=
  if s.id then
    match s.fd with
    | some b => .ok b
    | none => .err "file: pread error"
  else if s.cloud then
    match s.object with
    | some b => .ok b
    | none => .err "s3: not found"
  else .abort "reader_execute"

/-- The partition as its readers use it. -/
def reading (s : State) : Res PartFile :=
  (source s).bind fun file => .ok { file, index := s.index, index_data := s.index_data }

/-- An operation on the copies. -/
inductive Op where
  | upload (fault : Option UpFault)
  | download (got : Bytes) (fault : Option DownFault)
  | dropLocal (fail : Bool)
  | dropCloud (fault : Option DropFault)
  | restart
deriving Repr, DecidableEq

/-- One operation, and the error it reports. -/
def step (cs : Codecs) (s : State) : Op → Res (State × Option String)
  | .upload f => upload s f
  | .download got f => download s got f
  | .dropLocal f => .ok (dropLocal s f)
  | .dropCloud f => .ok (dropCloud s f)
  | .restart => (restart cs s).bind fun s => .ok (s, none)

/-- A history of operations; an error of one does not keep the next from being
tried. -/
def run (cs : Codecs) (s : State) : List Op → Res State
  | [] => .ok s
  | o :: l => (step cs s o).bind fun (s, _) => run cs s l

/-- After a refresh: the new file is in place and open, and part->index and
part->index_data are the writer's (refresh_apply, engine/engine/refresh.c, and
merger_write, engine/io/merger.c:51-96). -/
def fresh (w : Writer) : State :=
  { file := some w.file
    incomplete := none
    cloudFile := none
    cloudIncomplete := none
    object := none
    fd := some w.file
    lost := 0
    index := w.index_writer.index
    index_data := w.index_writer.data
    id := true
    cloud := false }

end Verif.Cold
