import Verif.Model.Parse

/-!
Model of the settings of storages and what they do to the files of partitions:
CREATE, ALTER, DROP of storages and clouds (main/main/execute.c,
engine/storage/storage_mgr.c, cloud/cloud/cloud_mgr.c), the configuration file,
refreshes and moves, restarts.

Simplifications.  Of a file only its place and the key it was encrypted with are kept;
a refresh and a move are one step (C27).  Copies in the cloud are not modelled (C41,
C75); whether a partition is there is asked of the surroundings (`Outside`).  The
configuration file holds the objects themselves (C35, C48).  The variables `storages`
and `clouds` of the configuration are set whenever the objects change
(storage_mgr_save, storage_mgr.c:38-55; cloud_mgr_save, cloud_mgr.c:49-66), so they
are the objects.
-/
namespace Verif.Settings
open Parse

/-- `struct Storage`, engine/storage/storage.h:18-29: the source, the cloud (by its
name) and the partitions (by `min`). -/
structure Storage where
  source : Source
  cloud : Option Bytes
  parts : List Nat
deriving DecidableEq, Repr

/-- A file of a partition: the directory of its storage (source_pathfmt,
cloud/cloud/source.h:331-364), the partition, and the key of the storage when it was
written, if it was encrypted (index->encryption, engine/io/index_writer.h:119-135). -/
structure File where
  path : Bytes
  uuid : Uuid
  min : Nat
  key : Option Bytes
deriving DecidableEq, Repr

/-- What is in config.json: the clouds by name, and the sources. -/
structure Conf where
  clouds : List Bytes
  sources : List Source
deriving DecidableEq, Repr

/-- The environment: its uuid, the clouds, the storages, the configuration file and
the files of partitions. -/
structure St where
  uuid : Uuid
  clouds : List Bytes
  storages : List Storage
  conf : Conf
  disk : List File
deriving DecidableEq, Repr

/-- What a command depends on beside the state: failures of fs_mkdir, cloud_attach,
cloud_detach and config_save, whether a tier refers to the storage, and whether a
partition of it is in the cloud. -/
structure Outside where
  mkdir : Bool
  attach : Bool
  detach : Bool
  save : Bool
  tier : Bool
  onCloud : Bool
deriving DecidableEq, Repr

/-- storage_mgr_find, storage_mgr.c:384-394. -/
def find (l : List Storage) (name : Bytes) : Option Storage := l.find? fun s => s.source.name == name

/-- Change the storage that storage_mgr_find finds. -/
def change (name : Bytes) (f : Storage → Storage) : List Storage → List Storage
  | [] => []
  | s :: l => if s.source.name = name then f s :: l else s :: change name f l

/-- list_unlink of the storage that storage_mgr_find finds. -/
def unlink (name : Bytes) : List Storage → List Storage
  | [] => []
  | s :: l => if s.source.name = name then l else s :: unlink name l

/-- source_alter, source.h:288-329, with the bits of source.h:18-33.  The setters of the
three numbers take an `int` (source.h:129-139, 148-152). -/
def source_alter (self alter : Source) (mask : Nat) : Source :=
  { uuid := if mask.testBit 0 then alter.uuid else self.uuid
    name := if mask.testBit 1 then alter.name else self.name
    path := if mask.testBit 2 then alter.path else self.path
    cloud := if mask.testBit 3 then alter.cloud else self.cloud
    cloud_drop_local := if mask.testBit 4 then alter.cloud_drop_local else self.cloud_drop_local
    sync := if mask.testBit 5 then alter.sync else self.sync
    crc := if mask.testBit 6 then alter.crc else self.crc
    refresh_wm := if mask.testBit 7 then wrapS32 alter.refresh_wm else self.refresh_wm
    region_size := if mask.testBit 8 then wrapS32 alter.region_size else self.region_size
    compression := if mask.testBit 9 then alter.compression else self.compression
    compression_level := if mask.testBit 10 then wrapS32 alter.compression_level else self.compression_level
    encryption := if mask.testBit 11 then alter.encryption else self.encryption
    encryption_key := if mask.testBit 12 then alter.encryption_key else self.encryption_key }

/-- storage_set_cloud, storage_mgr.c:116-136, with `attach`: the cloud of a source, or
an error. -/
def set_cloud (clouds : List Bytes) (c : Source) (fails : Bool) : Res (Option Bytes) :=
  if c.cloud = [] then .ok none
  else if ¬ clouds.contains c.cloud then .err "storage: cloud not exists"
  else if fails then .err "cloud_attach"
  else .ok (some c.cloud)

/-- storage_mgr_create, storage_mgr.c:186-208; the storage has a copy of the source
(storage_allocate, engine/storage/storage.h:40-54). -/
def storage_create (st : St) (c : Source) (ifNotExists : Bool) (o : Outside) : Res Unit × St :=
  match find st.storages c.name with
  | some _ => if ifNotExists then (.ok (), st) else (.err "storage: already exists", st)
  | none =>
    if o.mkdir then (.err "fs_mkdir", st)
    else
      match set_cloud st.clouds c o.attach with
      | .ok cloud => (.ok (), { st with storages := st.storages ++ [⟨c.copy, cloud, []⟩] })
      | .err m => (.err m, st)
      | .abort m => (.abort m, st)
      | .ub m => (.ub m, st)

/-- storage_mgr_drop, storage_mgr.c:210-245. -/
def storage_drop (st : St) (name : Bytes) (ifExists : Bool) (o : Outside) : Res Unit × St :=
  if name = Decode.cstr "main" then (.err "storage: main storage cannot be dropped", st)
  else
    match find st.storages name with
    | none => if ifExists then (.ok (), st) else (.err "storage: not exists", st)
    | some s =>
      if o.tier then (.err "storage: has dependencies", st)
      else if s.parts ≠ [] then (.err "storage: has partitions", st)
      else if s.cloud.isSome && o.detach then (.err "cloud_detach", st)
      else (.ok (), { st with storages := unlink name st.storages })

/-- storage_mgr_alter, storage_mgr.c:247-330. -/
def storage_alter (st : St) (c : Source) (mask : Nat) (ifExists : Bool) (o : Outside) : Res Unit × St :=
  match find st.storages c.name with
  | none => if ifExists then (.ok (), st) else (.err "storage: not exists", st)
  | some s =>
    if mask.testBit 6 && s.parts ≠ [] then (.err "storage: storage is not empty", st)
    else if mask.testBit 2 && s.parts ≠ [] then (.err "storage: storage is not empty", st)
    else if mask.testBit 2 && o.mkdir then (.err "fs_mkdir", st)
    else if (mask.testBit 11 || mask.testBit 12) && s.parts ≠ [] then (.err "storage: storage is not empty", st)
    else if mask.testBit 3 && o.onCloud then (.err "storage: some partitions are still remain on the cloud", st)
    else if mask.testBit 3 && s.cloud.isSome && o.detach then (.err "cloud_detach", st)
    else
      -- source_set_uuid, storage_mgr.c:273, changes only the parsed source
      let new := source_alter s.source c mask
      if ¬ mask.testBit 3 then
        (.ok (), { st with storages := change c.name (fun s => { s with source := new }) st.storages })
      else
        match set_cloud st.clouds new o.attach with
        | .ok cloud =>
          (.ok (), { st with storages := change c.name (fun s => { s with source := new, cloud := cloud }) st.storages })
        | .err m =>
          (.err m, { st with storages := change c.name (fun s => { s with source := new, cloud := none }) st.storages })
        | .abort m => (.abort m, st)
        | .ub m => (.ub m, st)

/-- storage_mgr_rename, storage_mgr.c:332-356. -/
def storage_rename (st : St) (name new : Bytes) (ifExists : Bool) : Res Unit × St :=
  if name = Decode.cstr "main" then (.err "storage: main storage cannot be renamed", st)
  else
    match find st.storages name with
    | none => if ifExists then (.ok (), st) else (.err "storage: not exists", st)
    | some _ =>
      match find st.storages new with
      | some _ => (.err "storage: already exists", st)
      | none =>
        (.ok (), { st with storages := change name (fun s => { s with source := { s.source with name := new } }) st.storages })

/-- cloud_mgr_create, cloud_mgr.c:107-124, and cloud_mgr_create_object, :68-83. -/
def cloud_create (st : St) (c : CloudConfig) (ifNotExists : Bool) : Res Unit × St :=
  if st.clouds.contains c.name then
    if ifNotExists then (.ok (), st) else (.err "cloud: already exists", st)
  else if c.type ≠ str (Lex.bytes "mock") ∧ c.type ≠ str (Lex.bytes "s3") then (.err "cloud: unknown cloud type", st)
  else (.ok (), { st with clouds := st.clouds ++ [c.name] })

/-- cloud_mgr_drop, cloud_mgr.c:126-148; the references are those of the storages
(storage_set_cloud, storage_free). -/
def cloud_drop (st : St) (name : Bytes) (ifExists : Bool) : Res Unit × St :=
  if ¬ st.clouds.contains name then
    if ifExists then (.ok (), st) else (.err "cloud: not exists", st)
  else if st.storages.any fun s => s.cloud == some name then (.err "cloud: has dependencies", st)
  else (.ok (), { st with clouds := st.clouds.erase name })

/-- cloud_mgr_rename, cloud_mgr.c:167-187, and storage_mgr_rename_cloud,
storage_mgr.c:358-369 (execute_cloud_alter, execute.c:289-297). -/
def cloud_rename (st : St) (name new : Bytes) (ifExists : Bool) : Res Unit × St :=
  let sources := fun (l : List Storage) => l.map fun s =>
    if s.source.cloud = name then { s with source := { s.source with cloud := new } } else s
  if ¬ st.clouds.contains name then
    if ifExists then (.ok (), { st with storages := sources st.storages }) else (.err "cloud: not exists", st)
  else if st.clouds.contains new then (.err "cloud: already exists", st)
  else
    (.ok (), { st with
      clouds := st.clouds.map fun c => if c = name then new else c
      storages := sources (st.storages.map fun s => if s.cloud = some name then { s with cloud := some new } else s) })

/-- control_save_config, main.c:26-34, at the end of every one of these commands. -/
def save (r : Res Unit × St) (fails : Bool) : Res Unit × St :=
  match r with
  | (.ok _, st) =>
    if fails then (.err "config_save", st)
    else (.ok (), { st with conf := ⟨st.clouds, st.storages.map (·.source)⟩ })
  | r => r

/-- A command of main_execute, execute.c:535-590; other commands do nothing to
storages and clouds.  cloud_mgr_alter (cloud_mgr.c:150-165) changes no name. -/
def command (st : St) (c : Cmd) (o : Outside) : Res Unit × St :=
  match c with
  | .cloudCreate ine c => save (cloud_create st c ine) o.save
  | .cloudDrop ie n => save (cloud_drop st (str n) ie) o.save
  | .cloudRename ie n m => save (cloud_rename st (str n) (str m) ie) o.save
  | .cloudAlter ie n _ _ =>
    save (if st.clouds.contains (str n) || ie then (.ok (), st) else (.err "cloud: not exists", st)) o.save
  | .storageCreate ine c => save (storage_create st c ine o) o.save
  | .storageDrop ie n => save (storage_drop st (str n) ie o) o.save
  | .storageRename ie n m => save (storage_rename st (str n) (str m) ie) o.save
  | .storageAlter ie _ c mask => save (storage_alter st c mask ie o) o.save
  | _ => (.ok (), st)

/-- A command from its text. -/
def execute (env : Env) (st : St) (text : List Nat) (o : Outside) : Res Unit × St :=
  match parse env text with
  | .ok c => command st c o
  | .err m => (.err m, st)
  | .abort m => (.abort m, st)
  | .ub m => (.ub m, st)

/-- The key with which a file of the storage is encrypted: writer_start,
engine/io/writer.c:98-123, encryption_aes_encrypt (runtime/lib/encryption_aes.c:59-69). -/
def write_key (c : Source) : Res (Option Bytes) :=
  if encryptionOf c.encryption = 0 then .ok none
  else if c.encryption_key.length ≠ 32 then .err "aes: encryption key must be 256bit"
  else .ok (some c.encryption_key)

/-- Whether the file is in the directory of the storage. -/
def inside (c : Source) (f : File) : Bool := f.path == c.path && f.uuid == c.uuid

/-- A file of a partition is opened or read: index_decrypt (engine/io/index_op.c:85-110)
and reader_execute (engine/io/reader.h:107-118) take the encryption from the index and
the key from the storage. -/
def opens (c : Source) (f : File) : Bool :=
  match f.key with
  | none => true
  | some k => c.encryption_key == k

/-- engine_create (engine/engine/op.c:25-66): a new partition in a storage. -/
def create (st : St) (name : Bytes) (min : Nat) : St :=
  if st.storages.any fun s => s.parts.contains min then st
  else { st with storages := change name (fun s => { s with parts := s.parts ++ [min] }) st.storages }

/-- refresh_run, engine/engine/refresh.c:201-237, for a partition and, for a move, the
name of the new storage: refresh_begin (:55-118), merger_execute (engine/io/merger.c),
refresh_apply (:134-166), refresh_end (:168-199). -/
def refresh (st : St) (min : Nat) (target : Option Bytes) : Res Unit × St :=
  match st.storages.find? fun s => s.parts.contains min with
  | none => (.err "refresh: partition not found", st)
  | some origin =>
    let goal := match target with
      | none => find st.storages origin.source.name
      | some name => find st.storages name
    match goal with
    | none => (.err "refresh: storage not found", st)
    | some s =>
      if target.isSome ∧ s.source.name = origin.source.name then (.ok (), st)
      else
        match write_key s.source with
        | .err m => (.err m, st)
        | .abort m => (.abort m, st)
        | .ub m => (.ub m, st)
        | .ok key =>
          (.ok (), { st with
            storages := change s.source.name (fun s => { s with parts := s.parts ++ [min] })
              (st.storages.map fun s => { s with parts := s.parts.filter (· ≠ min) })
            disk := st.disk.filter (fun f => !(inside origin.source f && f.min == min)) ++
              [⟨s.source.path, s.source.uuid, min, key⟩] })

/-- engine_drop, engine/engine/op.c:290-316, of a whole partition. -/
def drop (st : St) (min : Nat) : St :=
  match st.storages.find? fun s => s.parts.contains min with
  | none => st
  | some s => { st with
      storages := st.storages.map fun s => { s with parts := s.parts.filter (· ≠ min) }
      disk := st.disk.filter fun f => !(inside s.source f && f.min == min) }

/-- storage_mgr_open (storage_mgr.c:60-86) of one source, and engine_recover_storage
with the opening of its files (engine/engine/engine_recover.c:64-113, 202-249). -/
def recover (clouds : List Bytes) (disk : List File) (c : Source) : Res Storage :=
  match set_cloud clouds c false with
  | .ok cloud =>
    if (disk.filter (inside c)).all (opens c) then .ok ⟨c.copy, cloud, (disk.filter (inside c)).map (·.min)⟩
    else .err "aes: decryption failed"
  | .err m => .err m
  | .abort m => .abort m
  | .ub m => .ub m

/-- All of them. -/
def recover_all (clouds : List Bytes) (disk : List File) : List Source → Res (List Storage)
  | [] => .ok []
  | c :: l => (recover clouds disk c).bind fun s => (recover_all clouds disk l).bind fun r => .ok (s :: r)

/-- storage_mgr_create_main, storage_mgr.c:87-114: main has the uuid of the
environment.  The default compression is left out: what a file is compressed with is
in the file. -/
def main (uuid : Uuid) : Source := { Source.allocate with name := Decode.cstr "main", uuid := uuid }

/-- The storages after storage_mgr_open and storage_mgr_create_main, engine.c:50-55. -/
def sources (uuid : Uuid) (l : List Source) : List Source :=
  if l.any fun c => c.name == Decode.cstr "main" then l else l ++ [main uuid]

/-- The environment is closed and opened again: main_start, main.c:211-256, with
cloud_mgr_open (cloud_mgr.c:84-105) and engine_open (engine.c:50-72).  What was only in
memory is not kept here (the log brings it back, C26); directories are there. -/
def restart (st : St) : Res St :=
  (recover_all st.conf.clouds st.disk (sources st.uuid st.conf.sources)).bind fun l =>
    .ok { st with clouds := st.conf.clouds, storages := l }

/-- What is read of a partition: nothing from disk; its file; an error. -/
inductive Read where
  | memory
  | file
  | error
deriving DecidableEq, Repr

/-- A cursor on the partition. -/
def read (st : St) (min : Nat) : Read :=
  match st.storages.find? fun s => s.parts.contains min with
  | none => .memory
  | some s =>
    match st.disk.find? fun f => inside s.source f && f.min == min with
    | none => .memory
    | some f => if opens s.source f then .file else .error

/-- What happens to an environment. -/
inductive Op where
  | execute (env : Env) (text : List Nat) (o : Outside)
  | create (name : Bytes) (min : Nat)
  | refresh (min : Nat) (target : Option Bytes)
  | drop (min : Nat)
  | restart

/-- One step; an environment that does not open is left as it was. -/
def step (st : St) : Op → St
  | .execute env text o => (execute env st text o).2
  | .create name min => create st name min
  | .refresh min target => (refresh st min target).2
  | .drop min => drop st min
  | .restart => match restart st with
    | .ok st => st
    | _ => st

def run : St → List Op → St
  | st, [] => st
  | st, op :: ops => run (step st op) ops

/-- A new environment: the configuration file is written before there are storages
(config_open, runtime/config/config.c:275-292), then main is made. -/
def start (uuid : Uuid) : St := ⟨uuid, [], [⟨main uuid, none, []⟩], ⟨[], []⟩, []⟩

end Verif.Settings
