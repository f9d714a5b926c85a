import Verif.Model.Writer

/-! Model of the file a refresh writes when an earlier refresh of the partition
failed: file_create and file_write of runtime/runtime/file.h, part_create of
engine/io/part.c, refresh_run of engine/engine/refresh.c.

The directory holds the file of one partition and its `.incomplete` file.  Other
kinds of files and moves are in Model/Files.lean. -/
namespace Verif.Left

/-- An open file: its bytes, the position of the descriptor and `File.size`
(runtime/runtime/file.h:18-24). -/
structure Fd where
  bytes : Bytes
  pos : Nat
  size : Nat
deriving Repr, DecidableEq

/-- file_create, file.h:79-84 with file_open_as, file.h:48-66: the flags are
`O_CREAT|O_RDWR`, so the bytes of an existing file stay; the size is that set by
file_init (file.h:26-32). -/
def file_create (old : Option Bytes) : Fd :=
  match old with
  | none => ⟨[], 0, 0⟩
  | some b => ⟨b, 0, 0⟩

/-- file_write and file_writev, file.h:185-218, when all bytes are written: at the
position of the descriptor. -/
def file_write (f : Fd) (x : Bytes) : Fd :=
  ⟨f.bytes.take f.pos ++ x ++ f.bytes.drop (f.pos + x.length), f.pos + x.length, f.size + x.length⟩

/-- Several writes, one after the other. -/
def file_writes (f : Fd) : List Bytes → Fd
  | [] => f
  | x :: l => file_writes (file_write f x) l

/-- The files of the partition. -/
structure Dir where
  incomplete : Option Bytes := none
  id : Option Bytes := none
deriving Repr, DecidableEq

/-- What happens: a refresh that fails after writing some pieces (the last one
perhaps in part), a refresh that succeeds, or an end of the process and a
restart. -/
inductive Step where
  | failed (pieces : List Bytes)
  | done (pieces : List Bytes)
  | restart
deriving Repr, DecidableEq

/-- refresh_run, engine/engine/refresh.c:201-237: merger_execute creates the file
(engine/io/merger.c:118-122); when it throws, merger_reset and part_free close it
and leave it (merger.c:40-52, engine/io/part.c:43-51); refresh_end renames it
(refresh.c:168-199; the two renames are one here).  A restart removes it
(engine/engine/engine_recover.c:115-142). -/
def step (d : Dir) : Step → Dir
  | .failed l => { d with incomplete := some (file_writes (file_create d.incomplete) l).bytes }
  | .done l => ⟨none, some (file_writes (file_create d.incomplete) l).bytes⟩
  | .restart => { d with incomplete := none }

/-- A history. -/
def run (d : Dir) : List Step → Dir
  | [] => d
  | s :: l => run (step d s) l

end Verif.Left
