import Verif.Model.Reopen

/-!
Model of where the copies of partitions are put in a cloud, and where they are looked
for later: the settings of clouds and storages as commands leave them
(Model/Reopen.lean), the objects in the cloud, and the partitions.

Simplifications.  A file and an object are a number that stands for their bytes (C62,
C75); an object is replaced and removed in one step (what the mock keeps of a longer one
is C96).  A bucket that has objects is not
deleted by the server (s3_op_drop_bucket, cloud/s3/s3_op.c), so detaching a storage
leaves the objects.  An address of S3 is its three parts; that different parts give
different addresses is C57.  Whether the cloud accepts the login is not modelled.
Local copies are left out (C41).
-/
namespace Verif.Reach
open Parse Reopen

/-- The address of an object: mock_path, cloud/cloud/mock.c:20-25, with source_pathfmt,
cloud/cloud/source.h:331-364; s3_request_prepare, cloud/s3/s3_request.c. -/
inductive Place where
  | mock (path : Bytes) (uuid : Uuid) (min : Nat)
  | s3 (url : Bytes) (uuid : Uuid) (min : Nat)
deriving DecidableEq, Repr

/-- The address that the interface of the cloud (cloud_mgr_interface_of,
cloud/cloud/cloud_mgr.c:22-30) uses for a partition of a storage. -/
def place (c : CloudConfig) (s : Source) (min : Nat) : Place :=
  if c.type = str (Lex.bytes "mock") then .mock s.path s.uuid min else .s3 c.url s.uuid min

/-- The environment with its partitions. -/
structure World where
  /-- clouds, and storages with their partitions (by `min`) -/
  st : Reopen.St
  /-- part_has(part, ID_CLOUD) -/
  up : Nat → Bool
  /-- the content of the partition's file -/
  file : Nat → Nat
  /-- a removal from the cloud was asked for and its answer did not come -/
  asked : Nat → Bool
  /-- what the clouds have -/
  stored : Place → Option Nat

/-- The storage of a partition: part->source and part->cloud are those of its storage
(storage_add, engine/storage/storage.h; storage_mgr_alter, storage_mgr.c:309-328). -/
def holder (w : World) (min : Nat) : Option Settings.Storage := w.st.storages.find? fun s => s.parts.contains min

/-- The address of a partition in the cloud of its storage. -/
def address (w : World) (s : Settings.Storage) (min : Nat) : Res Place :=
  match s.cloud with
  | none => .ub "part->cloud is NULL"
  | some n =>
    match find_cloud w.st.clouds n with
    | none => .ub "part->cloud was freed"
    | some c => .ok (place c s.source min)

/-- cloud_read and cloud_download of a partition, cloud/cloud/cloud.h:71-93. -/
def fetch (w : World) (s : Settings.Storage) (min : Nat) : Res Nat :=
  (address w s min).bind fun p =>
    match w.stored p with
    | none => .err "s3: 404"
    | some v => .ok v

/-- A function with another value at one place. -/
def put {α β : Type} [DecidableEq α] (f : α → β) (a : α) (b : β) : α → β := fun x => if x = a then b else f x

/-- What happens: a command on the configuration, a new partition, a refresh or move
that leaves the content `v`, an upload, a removal from the cloud, and the drop of a
partition.  `lost`: the answer of the cloud does not arrive. -/
inductive Op where
  | execute (text : List Nat) (uuid : Uuid) (key : Bytes) (o : Settings.Outside)
  | create (name : Bytes) (min v : Nat)
  | refresh (min v : Nat) (target : Option Bytes)
  | upload (min : Nat) (lost : Bool)
  | remove (min : Nat) (lost : Bool)
  | drop (min : Nat) (lost : Bool)

/-- Whether the command is an ALTER STORAGE of a storage that has a partition in the
cloud: the loop of storage_mgr_alter, engine/storage/storage_mgr.c:289-298. -/
def onCloud (w : World) (text : List Nat) (uuid : Uuid) (key : Bytes) : Bool :=
  match (envOf w.st.cfg uuid key).bind fun env => parse env text with
  | .ok (.storageAlter _ _ c _) =>
    match Settings.find w.st.storages c.name with
    | some s => s.parts.any w.up
    | none => false
  | _ => false

/-- storage_add of a partition (engine/storage/storage.h) in the storage of that name. -/
def give (name : Bytes) (min : Nat) (l : List Settings.Storage) : List Settings.Storage :=
  Settings.change name (fun s => { s with parts := min :: s.parts }) l

/-- storage_remove of a partition (engine/storage/storage.h). -/
def take (min : Nat) (l : List Settings.Storage) : List Settings.Storage :=
  l.map fun s => { s with parts := s.parts.filter (· ≠ min) }

/-- cloud_remove in part_offload, engine/io/part.c:200-221, and part_unset
(engine/engine/op.c:199-206); S3 accepts the removal of an object that is not there. -/
def remove (w : World) (min : Nat) (lost : Bool) : Res World :=
  if w.up min then
    match holder w min with
    | none => .ok w
    | some s =>
      (address w s min).bind fun p =>
        if lost then .ok { w with stored := put w.stored p none, asked := put w.asked min true }
        else .ok { w with stored := put w.stored p none, up := put w.up min false, asked := put w.asked min false }
  else .ok w

/-- One step. -/
def step (m : Machine) (w : World) : Op → Res World
  | .execute text uuid key o =>
    .ok { w with st := (Reopen.execute m w.st text uuid key { o with onCloud := onCloud w text uuid key }).2 }
  -- ref_create and storage_add, engine/engine/write.c
  | .create name min v =>
    match holder w min, Settings.find w.st.storages name with
    | none, some _ =>
      .ok { w with
        st := { w.st with storages := give name min w.st.storages }
        up := put w.up min false
        asked := put w.asked min false
        file := put w.file min v }
    | _, _ => .ok w
  -- refresh_begin, engine/engine/refresh.c:58-110, which refuses partitions in the
  -- cloud, and refresh_apply
  | .refresh min v target =>
    match holder w min with
    | none => .ok w
    | some _ =>
      if w.up min then .ok w
      else
        match target with
        | none => .ok { w with file := put w.file min v }
        | some name =>
          match Settings.find w.st.storages name with
          | none => .ok w
          | some _ =>
            .ok { w with
              st := { w.st with storages := give name min (take min w.st.storages) }
              file := put w.file min v }
  -- engine_upload, engine/engine/op.c:394-453
  | .upload min lost =>
    match holder w min with
    | none => .ok w
    | some s =>
      if s.cloud = none ∨ w.up min then .ok w
      else
        (address w s min).bind fun p =>
          if lost then .ok { w with stored := put w.stored p (some (w.file min)) }
          else .ok { w with stored := put w.stored p (some (w.file min)), up := put w.up min true, asked := put w.asked min false }
  -- engine_drop_file with the mask ID_CLOUD, engine/engine/op.c:164-237
  | .remove min lost => remove w min lost
  -- engine_drop, engine/engine/op.c:291-315
  | .drop min lost =>
    (remove w min lost).bind fun w' =>
      if w'.up min then .ok w'
      else .ok { w' with st := { w'.st with storages := take min w'.st.storages } }

/-- Steps in order. -/
def run (m : Machine) : World → List Op → Res World
  | w, [] => .ok w
  | w, op :: ops => (step m w op).bind fun w => run m w ops

/-- An environment without partitions, and the clouds with anything in them. -/
def start (st : Reopen.St) (stored : Place → Option Nat) : World :=
  ⟨{ st with storages := st.storages.map fun s => { s with parts := [] } }, fun _ => false, fun _ => 0, fun _ => false, stored⟩

end Verif.Reach
