import Verif.Model.Leftover

/-! Model of the test cloud (cloud/cloud/mock.c) for one partition: its local file, the
file in the `mock` directory, and whether the partition counts as being in the cloud.

The partition has a cloud.  Its index dump (`.cloud`) is in Model/Cold.lean; here it is
there exactly when `cloud` is set, as recovery has it (engine_recover.c:30-57).  A
refresh and a download are one step each; what they leave when they fail is in
Model/Leftover.lean and Model/Files.lean.  Files of partitions are not empty, so that
reading a whole one (file_import) does not fail for that. -/
namespace Verif.Mock
open Left

/-- The copies of a partition. -/
structure State where
  /-- `<storage>/<min>`; part_has(ID) -/
  file : Option Bytes := none
  /-- `<storage>/mock/<min>`, mock_path, cloud/cloud/mock.c:20-25 -/
  object : Option Bytes := none
  /-- part_has(ID_CLOUD) -/
  cloud : Bool := false
deriving Repr, DecidableEq

/-- Where an upload stops, by an error or the end of the process: before the file of
the mock is opened, after some of its bytes, after all of them (part_rename,
engine/io/part.c:193). -/
inductive Stop where
  | before
  | during (n : Nat)
  | after
deriving Repr, DecidableEq

/-- mock_upload, cloud/cloud/mock.c:116-144: the whole local file is read and written
with one call, into a file opened by file_create.  `n`: the bytes that get there. -/
def mock_upload (old : Option Bytes) (file : Bytes) (n : Nat) : Bytes :=
  (file_write (file_create old) (file.take n)).bytes

/-- mock_read, cloud/cloud/mock.c:158-174: file_pread_buf (runtime/runtime/file.h:
259-265). -/
def mock_read (object : Bytes) (size offset : Nat) : Res Bytes := Io.pread object size offset

/-- What happens to the partition. -/
inductive Step where
  /-- a refresh that leaves these bytes (refused for a partition in the cloud,
  engine/engine/refresh.c:58-110), also the first one of a new partition -/
  | refresh (b : Bytes)
  /-- engine_upload, engine/engine/op.c:394-454 -/
  | upload (stop : Option Stop)
  /-- engine_drop_file with the mask ID, op.c:164-237 -/
  | dropLocal
  /-- engine_drop_file with the mask ID_CLOUD; `ends`: the process ends between the two
  removals of part_offload, engine/io/part.c:213-220 -/
  | dropCloud (ends : Bool)
  /-- engine_download, op.c:325-384 -/
  | download
deriving Repr, DecidableEq

/-- One step. -/
def step (s : State) : Step → State
  | .refresh b => if s.cloud then s else { s with file := some b }
  | .upload stop =>
    if s.cloud then s
    else
      match s.file, stop with
      | none, _ => s
      | some _, some .before => s
      | some b, some (.during n) => { s with object := some (mock_upload s.object b n) }
      | some b, some .after => { s with object := some (mock_upload s.object b b.length) }
      | some b, none => { s with object := some (mock_upload s.object b b.length), cloud := true }
  | .dropLocal => { s with file := none }
  | .dropCloud ends =>
    if ! s.cloud then s
    else if ends then { s with cloud := false }
    else { s with cloud := false, object := none }
  | .download =>
    match s.file, s.object with
    | none, some o => if s.cloud then { s with file := some o } else s
    | _, _ => s

/-- A history. -/
def run (s : State) : List Step → State
  | [] => s
  | x :: l => run (step s x) l

end Verif.Mock
