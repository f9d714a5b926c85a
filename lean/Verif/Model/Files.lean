import Verif.Model.Basic

/-! The files of one partition: what refresh, upload, download and drop do with
them step by step, and what a restart makes of what it finds.

File names contain the storage directory and the first id of the partition
(id_path, cloud/cloud/id.h:34-66), so the files of different partitions do not
meet, and one partition is modelled.  The contents of a file are reduced to
which version of the partition they are.  The cloud is a store of whole objects,
one per storage and partition (s3_request_prepare, cloud/s3/s3_request.c:85-90).

The process may die between any two steps: what was written is kept (the machine
itself does not fail, so whether files are synced does not matter here). -/
namespace Verif.Files

/-- A file: which version of the partition, whether all of it has been written,
and whether bytes of an older file follow it. -/
structure Blob where
  version : Nat
  written : Bool
  tail : Bool
deriving DecidableEq, Repr, Inhabited

/-- A file that can be opened: index_open, engine/io/index.h, looks for the footer
at the end of the file and checks its crc. -/
def Blob.opens (b : Blob) : Bool := b.written && ! b.tail

/-- The suffixes, cloud/cloud/id.h:18-26. -/
inductive Kind where
  | id
  | incomplete
  | complete
  | cloud
  | cloudIncomplete
deriving DecidableEq, Repr

/-- The files of the partition in the directory of one storage, and its object in
the cloud. -/
structure Dir where
  id : Option Blob := none
  incomplete : Option Blob := none
  complete : Option Blob := none
  cloud : Option Blob := none
  cloudIncomplete : Option Blob := none
  remote : Option Blob := none
deriving DecidableEq, Repr

def Dir.get (d : Dir) : Kind → Option Blob
  | .id => d.id
  | .incomplete => d.incomplete
  | .complete => d.complete
  | .cloud => d.cloud
  | .cloudIncomplete => d.cloudIncomplete

def Dir.set (d : Dir) (k : Kind) (b : Option Blob) : Dir :=
  match k with
  | .id => { d with id := b }
  | .incomplete => { d with incomplete := b }
  | .complete => { d with complete := b }
  | .cloud => { d with cloud := b }
  | .cloudIncomplete => { d with cloudIncomplete := b }

/-- The directories of all storages. -/
abbrev Disk := Nat → Dir

def Disk.on (d : Disk) (s : Nat) (f : Dir → Dir) : Disk := fun x => if x = s then f (d x) else d x

/-- System calls and requests that change files. -/
inductive Act where
  /-- file_create (runtime/runtime/file.h, O_CREAT without O_TRUNC) and the first
  writes -/
  | create (s : Nat) (k : Kind) (v : Nat)
  /-- the last write; bytes of an older, longer file stay behind it -/
  | write (s : Nat) (k : Kind) (v : Nat) (tail : Bool)
  /-- fs_rename, runtime/runtime/fs.h:53-64; it replaces -/
  | rename (s : Nat) (k l : Kind)
  /-- fs_unlink, runtime/runtime/fs.h:40-51 -/
  | unlink (s : Nat) (k : Kind)
  /-- an object written in part or whole -/
  | put (s : Nat) (b : Blob)
  /-- an object removed -/
  | del (s : Nat)
deriving DecidableEq, Repr

/-- The effect of an act.  A rename or unlink of a file that does not exist is
left out by part_delete and part_rename, engine/io/part.c:138-162. -/
def perform (d : Disk) : Act → Disk
  | .create s k v => d.on s fun x => x.set k (some { version := v, written := false, tail := false })
  | .write s k v t => d.on s fun x => x.set k (some { version := v, written := true, tail := t })
  | .rename s k l => d.on s fun x =>
    match x.get k with
    | none => x
    | some b => (x.set l (some b)).set k none
  | .unlink s k => d.on s fun x => x.set k none
  | .put s b => d.on s fun x => { x with remote := some b }
  | .del s => d.on s fun x => { x with remote := none }

/-- The partition in memory (Part, engine/io/part.h:18-35): its storage, the bits
ID and ID_CLOUD of its state, where the file is that it has open, and whether it
has closed it nevertheless. -/
structure Mem where
  storage : Nat
  id : Bool := false
  cloud : Bool := false
  fd : Kind := .id
  closed : Bool := false
deriving DecidableEq, Repr

/-- A step of an operation: an act, a change in memory, or an error the operation
always runs into. -/
inductive Step where
  | act (a : Act)
  | mem (m : Option Mem)
  | fail
deriving DecidableEq, Repr

/-- Files and memory. -/
structure World where
  disk : Disk
  mem : Option Mem

/-- Operations on a partition. -/
inductive Op where
  /-- engine_create, engine/engine/op.c:25-66, on the storage `s` -/
  | create (s : Nat)
  /-- refresh_run, engine/engine/refresh.c:201-237, on the same storage or a move;
  `v` is the version merged, `tail` tells if a file left from an earlier attempt
  is longer than the new one -/
  | refresh (target : Option Nat) (v : Nat) (tail : Bool)
  /-- engine_upload, op.c:394-454 -/
  | upload
  /-- engine_download, op.c:325-384 -/
  | download
  /-- engine_drop, op.c:290-315, with the mask -/
  | drop (cloud local_ : Bool)
deriving DecidableEq, Repr

/-- part_upload with cloud_upload, engine/io/part.c:177-194 and 97-131,
cloud/s3/s3.c:153-176, cloud/cloud/mock.c:111-141.  The object of the mock is
written in place, that of S3 in one step; a remaining object is replaced (what the
mock keeps of a longer one is in Model/Mock.lean). -/
def uploadSteps (d : Disk) (m : Mem) : List Step :=
  .act (.unlink m.storage .cloudIncomplete) ::
  match (d m.storage).id with
  | none => [.fail]
  | some b =>
    if ! b.opens then [.fail]
    else
      [.act (.create m.storage .cloudIncomplete b.version), .act (.write m.storage .cloudIncomplete b.version false),
       .act (.put m.storage { b with written := false }), .act (.put m.storage b),
       .act (.rename m.storage .cloudIncomplete .cloud), .mem (some { m with cloud := true })]

/-- part_download with cloud_download, part.c:164-175, s3.c:115-151,
mock.c:78-109. -/
def downloadSteps (d : Disk) (m : Mem) : List Step :=
  .act (.unlink m.storage .incomplete) ::
  match (d m.storage).remote with
  | none => [.fail]
  | some b =>
    [.act (.create m.storage .incomplete b.version)] ++
    if ! b.opens then [.fail]
    else
      [.act (.write m.storage .incomplete b.version false), .act (.rename m.storage .incomplete .id),
       .mem (some { m with
        id := true
        fd := .id })]

/-- The merge, refresh_apply and refresh_end from the storage of `m` to `b`:
engine/io/merger.c:99-128, engine/engine/refresh.c:134-199. -/
def refreshSteps (d : Disk) (m : Mem) (b v : Nat) (tail : Bool) : List Step :=
  [.act (.create b .incomplete v), .act (.write b .incomplete v ((d b).incomplete.isSome && tail)),
   .mem (some { storage := b, id := true, fd := .incomplete }),
   .act (.rename b .incomplete .complete), .act (.unlink m.storage .id), .act (.rename b .complete .id)]

/-- engine_drop_file with part_offload, op.c:196-225 and part.c:196-216; the file
is closed before it is unlinked. -/
def dropSteps (m : Mem) (cloud local_ : Bool) : List Step :=
  (if cloud && m.cloud then
    [.act (.unlink m.storage .cloud), .act (.del m.storage), .mem (some { m with cloud := false })]
  else []) ++
  (if local_ && m.id then
    [.mem (some { m with
      cloud := m.cloud && ! cloud
      closed := true }),
     .act (.unlink m.storage .id), .mem (some { m with
      cloud := m.cloud && ! cloud
      id := false })]
  else []) ++
  (if cloud && local_ then [.mem none] else [])

/-- The steps of an operation in a state; none if it does nothing. -/
def plan (w : World) (o : Op) : List Step :=
  match w.mem, o with
  | none, .create s => [.mem (some { storage := s })]
  | none, _ => []
  | some _, .create _ => []
  | some m, .refresh target v tail =>
    -- refresh_begin, refresh.c:55-118
    if m.cloud then [.fail]
    else
      match target with
      | some b => if b = m.storage then [] else refreshSteps w.disk m b v tail
      | none => refreshSteps w.disk m m.storage v tail
  | some m, .upload => if m.cloud then [] else if ! m.id then [.fail] else uploadSteps w.disk m
  | some m, .download => if m.id then [] else if ! m.cloud then [] else downloadSteps w.disk m
  | some m, .drop cloud local_ => dropSteps m cloud local_

/-- A file that is renamed stays open. -/
def follow (m : Option Mem) : Act → Option Mem
  | .rename s k l =>
    match m with
    | some m =>
      if m.storage = s ∧ m.fd = k then some { m with
        fd := l }
      else some m
    | none => none
  | _ => m

/-- Some steps, up to the first error. -/
def exec (w : World) : List Step → World
  | [] => w
  | .act a :: l => exec { disk := perform w.disk a, mem := follow w.mem a } l
  | .mem m :: l => exec { w with mem := m } l
  | .fail :: _ => w

/-! Recovery. -/

/-- The bits of `part->state` after reading a directory. -/
structure Flags where
  id : Bool
  incomplete : Bool
  complete : Bool
  cloud : Bool
  cloudIncomplete : Bool
deriving DecidableEq, Repr

/-- engine_recover_storage, engine/engine/engine_recover.c:64-113, for one
partition: the partition object if there is any file. -/
def readDir (d : Dir) : Option Flags :=
  let f : Flags :=
    { id := d.id.isSome, incomplete := d.incomplete.isSome, complete := d.complete.isSome, cloud := d.cloud.isSome
      cloudIncomplete := d.cloudIncomplete.isSome }
  if f.id || f.incomplete || f.complete || f.cloud || f.cloudIncomplete then some f else none

/-- storage_mgr_find_part, engine/storage/storage_mgr.c:396-412. -/
def findPart (order : List Nat) (parts : Nat → Option Flags) (exclude : Nat) : Option Flags :=
  order.findSome? fun s => if s = exclude then none else parts s

def setPart (parts : Nat → Option Flags) (s : Nat) (f : Option Flags) : Nat → Option Flags :=
  fun x => if x = s then f else parts x

/-- The switch of engine_recover_validate, engine_recover.c:115-200, for one
storage. -/
def validate (order : List Nat) (parts : Nat → Option Flags) (s : Nat) : List Step × (Nat → Option Flags) :=
  match parts s with
  | none => ([], parts)
  | some f =>
    match f with
    | ⟨true, false, false, false, false⟩ => ([], parts)
    | ⟨true, false, false, true, false⟩ => ([], parts)
    | ⟨false, false, false, true, false⟩ => ([], parts)
    | ⟨false, true, false, false, false⟩ => ([.act (.unlink s .incomplete)], setPart parts s none)
    | ⟨true, true, false, false, false⟩ =>
      ([.act (.unlink s .incomplete)], setPart parts s (some ⟨true, false, false, false, false⟩))
    | ⟨true, false, true, false, false⟩ =>
      ([.act (.unlink s .complete)], setPart parts s (some ⟨true, false, false, false, false⟩))
    | ⟨false, false, true, false, false⟩ =>
      match findPart order parts s with
      | some g =>
        if ! g.id then ([.fail], parts)
        else ([.act (.unlink s .complete)], setPart parts s none)
      | none => ([.act (.rename s .complete .id)], setPart parts s (some ⟨true, false, false, false, false⟩))
    | ⟨false, true, false, true, false⟩ =>
      ([.act (.unlink s .incomplete)], setPart parts s (some ⟨false, false, false, true, false⟩))
    | ⟨true, false, false, false, true⟩ =>
      ([.act (.unlink s .cloudIncomplete)], setPart parts s (some ⟨true, false, false, false, false⟩))
    | _ => ([.fail], parts)

/-- engine_recover_validate for all storages, in their order. -/
def validateAll (order : List Nat) : (Nat → Option Flags) → List Nat → List Step × (Nat → Option Flags)
  | parts, [] => ([], parts)
  | parts, s :: l =>
    let (a, parts) := validate order parts s
    let (b, parts) := validateAll order parts l
    (a ++ b, parts)

/-- part_open in engine_recover, engine_recover.c:229-236 and
engine/io/part.c:53-82, of what is left in a storage: the step that makes it the
partition in memory. -/
def openPart (d : Disk) (s : Nat) (f : Flags) : Step :=
  if f.id then
    match (d s).id with
    | some b => if b.opens then .mem (some { storage := s, id := true, cloud := f.cloud }) else .fail
    | none => .fail
  else if f.cloud then
    match (d s).cloud with
    | some b => if b.opens then .mem (some { storage := s, cloud := true }) else .fail
    | none => .fail
  else .fail

/-- The loop that opens partitions, engine_recover.c:221-250.  A second storage
with the same partition is added to the mapping again (mapping_add,
engine/io/mapping.h:80-90: an assertion, or a corrupted tree); here, an error. -/
def openAll (d : Disk) (parts : Nat → Option Flags) : List Nat → List Step
  | [] => []
  | s :: l =>
    match parts s with
    | none => openAll d parts l
    | some f => if l.any fun x => (parts x).isSome then [.fail] else [openPart d s f]

/-- engine_recover, engine_recover.c:202-251. -/
def recover (order : List Nat) (d : Disk) : List Step :=
  let (a, parts) := validateAll order (fun s => readDir (d s)) order
  a ++ openAll (exec { disk := d, mem := none } a).disk parts order

/-- Does this list of steps run into an error? -/
def fails (l : List Step) : Bool := l.any fun s => s = .fail

/-- Restarts that die after some of their steps, then one that does not: none if
it ends with an error. -/
def restart (order : List Nat) (d : Disk) : List Nat → Option World
  | [] =>
    let l := recover order d
    if fails l then none else some (exec { disk := d, mem := none } l)
  | n :: recs => restart order (exec { disk := d, mem := none } ((recover order d).take n)).disk recs

end Verif.Files
