import Verif.Model.Config
import Verif.Model.Settings

/-!
Model of what commands leave in the configuration file and what is made of it when the
environment is opened again: the clouds, the storages and the pipeline with all their
settings, and the variables.  The file is its text: the objects are encoded into
variables (cloud_mgr_save, storage_mgr_save, pipeline_save), the variables are written
as JSON (`Config.saveText`), and read back (`Config.open_`, cloud_mgr_open,
storage_mgr_open, pipeline_open).

Simplifications.  config_save does not fail (C36, C73).  Directories exist when the
environment is opened.  Which partitions storages have is not computed: anything may
happen to them (`Op.partitions`).  Opening partitions and the log is left out (C26).
-/
namespace Verif.Reopen
open Data Config Parse

/-- An open environment: the variables, the clouds, the storages, the tiers and the
text of config.json. -/
structure St where
  cfg : List Var
  clouds : List CloudConfig
  storages : List Settings.Storage
  tiers : List TierConfig
  text : Bytes
deriving DecidableEq, Repr

/-- Outside of the program: strtod, snprintf of a double, the depth of the C stack. -/
structure Machine where
  fp : Bytes → Option (Nat × Nat)
  fmt : Nat → Bytes
  depth : Nat

/-- cloud_config_alter, cloud/cloud/cloud_config.h:174-194, with the bits of :18-26. -/
def cloud_config_alter (self alter : CloudConfig) (mask : Nat) : CloudConfig :=
  { name := if mask.testBit 0 then alter.name else self.name
    type := if mask.testBit 1 then alter.type else self.type
    login := if mask.testBit 2 then alter.login else self.login
    password := if mask.testBit 3 then alter.password else self.password
    url := if mask.testBit 4 then alter.url else self.url
    debug := if mask.testBit 5 then alter.debug else self.debug }

/-- cloud_mgr_create_object, cloud/cloud/cloud_mgr.c:68-83, with mock_create
(cloud/cloud/mock.c:36-47) and s3_create with s3_validate_config
(cloud/s3/s3.c:36-66); a copy of the settings is kept. -/
def create_object (c : CloudConfig) : Res CloudConfig :=
  if c.type = str (Lex.bytes "mock") then .ok c
  else if c.type = str (Lex.bytes "s3") then
    if c.login = [] then .err "s3: access_key is not defined"
    else if c.password = [] then .err "s3: secret_key is not defined"
    else if c.url = [] then .err "s3: url is not defined"
    else .ok c
  else .err "cloud: unknown cloud type"

/-- cloud_mgr_find, cloud_mgr.c:215-225. -/
def find_cloud (l : List CloudConfig) (name : Bytes) : Option CloudConfig := l.find? fun c => c.name == name

/-- Change the cloud that cloud_mgr_find finds. -/
def change (name : Bytes) (f : CloudConfig → CloudConfig) : List CloudConfig → List CloudConfig
  | [] => []
  | c :: l => if c.name = name then f c :: l else c :: change name f l

/-- list_unlink of the cloud that cloud_mgr_find finds. -/
def unlink (name : Bytes) : List CloudConfig → List CloudConfig
  | [] => []
  | c :: l => if c.name = name then l else c :: unlink name l

/-- var_data_set_buf, runtime/config/var.h. -/
def set_data (cfg : List Var) (name : Bytes) (data : Bytes) : List Var :=
  match find cfg name with
  | none => cfg
  | some v => update cfg name { v with str := data }

/-- cloud_mgr_save, cloud_mgr.c:49-66. -/
def save_clouds (st : St) : St :=
  { st with
    cfg := set_data st.cfg (Decode.cstr "clouds")
      (data_write_array st.clouds.length ++ st.clouds.flatMap CloudConfig.write) }

/-- storage_mgr_save, engine/storage/storage_mgr.c:38-55. -/
def save_storages (st : St) : St :=
  { st with
    cfg := set_data st.cfg (Decode.cstr "storages")
      (data_write_array st.storages.length ++ st.storages.flatMap fun s => s.source.write) }

/-- pipeline_save, engine/storage/pipeline.c:47-64. -/
def save_tiers (st : St) : St :=
  { st with
    cfg := set_data st.cfg (Decode.cstr "pipeline")
      (data_write_array st.tiers.length ++ st.tiers.flatMap TierConfig.write) }

/-- control_save_config, main/main/main.c:26-34: the outcome and the environment. -/
def save (m : Machine) (st : St) : Res Unit × St :=
  match saveText m.fmt m.depth st.cfg with
  | .ok text => (.ok (), { st with text := text })
  | .err e => (.err e, st)
  | .abort e => (.abort e, st)
  | .ub e => (.ub e, st)

/-- cloud_mgr_create, cloud_mgr.c:107-124. -/
def cloud_create (st : St) (c : CloudConfig) (ifNotExists : Bool) : Res Unit × St :=
  match find_cloud st.clouds c.name with
  | some _ => if ifNotExists then (.ok (), st) else (.err "cloud: already exists", st)
  | none =>
    match create_object c with
    | .ok c => (.ok (), save_clouds { st with clouds := st.clouds ++ [c] })
    | .err e => (.err e, st)
    | .abort e => (.abort e, st)
    | .ub e => (.ub e, st)

/-- cloud_mgr_drop, cloud_mgr.c:126-148; `refs` are the storages that have the cloud
(storage_set_cloud, storage_mgr.c:116-136). -/
def cloud_drop (st : St) (name : Bytes) (ifExists : Bool) : Res Unit × St :=
  match find_cloud st.clouds name with
  | none => if ifExists then (.ok (), st) else (.err "cloud: not exists", st)
  | some _ =>
    if st.storages.any fun s => s.cloud == some name then (.err "cloud: has dependencies", st)
    else (.ok (), save_clouds { st with clouds := unlink name st.clouds })

/-- cloud_mgr_alter, cloud_mgr.c:150-165. -/
def cloud_alter (st : St) (c : CloudConfig) (mask : Nat) (ifExists : Bool) : Res Unit × St :=
  match find_cloud st.clouds c.name with
  | none => if ifExists then (.ok (), st) else (.err "cloud: not exists", st)
  | some _ => (.ok (), save_clouds { st with clouds := change c.name (fun s => cloud_config_alter s c mask) st.clouds })

/-- cloud_mgr_rename, cloud_mgr.c:167-187.  The storages point to the cloud; here they
have its name. -/
def cloud_rename (st : St) (name new : Bytes) (ifExists : Bool) : Res Unit × St :=
  match find_cloud st.clouds name with
  | none => if ifExists then (.ok (), st) else (.err "cloud: not exists", st)
  | some _ =>
    match find_cloud st.clouds new with
    | some _ => (.err "cloud: already exists", st)
    | none =>
      (.ok (), save_clouds { st with
        clouds := change name (fun c => { c with name := new }) st.clouds
        storages := st.storages.map fun s => if s.cloud = some name then { s with cloud := some new } else s })

/-- storage_mgr_rename_cloud, storage_mgr.c:358-369. -/
def rename_cloud (st : St) (name new : Bytes) : St :=
  save_storages { st with storages := st.storages.map fun s =>
    if s.source.cloud = name then { s with source := { s.source with cloud := new } } else s }

/-- The environment as `Settings` sees it. -/
def view (st : St) : Settings.St := ⟨⟨0, 0⟩, st.clouds.map (·.name), st.storages, ⟨[], []⟩, []⟩

/-- An operation on storages of `Settings`; storage_mgr_save follows each change (and is
left out where nothing changed: it would set the variable to what it says already). -/
def through (st : St) (r : Res Unit × Settings.St) : Res Unit × St :=
  if r.2.storages = st.storages then (r.1, st) else (r.1, save_storages { st with storages := r.2.storages })

/-- Whether a tier has the storage: `storage->refs`, storage_mgr.c:229 (tier_resolve,
engine/storage/tier.h:48-58). -/
def tiered (st : St) (name : Bytes) : Bool := st.tiers.any fun t => t.name == name

/-- pipeline_rename, pipeline.c:176-189: the first tier of that name. -/
def rename_tier (name new : Bytes) : List TierConfig → List TierConfig
  | [] => []
  | t :: l => if t.name = name then { t with name := new } :: l else t :: rename_tier name new l

@[inherit_doc rename_tier] def pipeline_rename (st : St) (name new : Bytes) : St :=
  if tiered st name then save_tiers { st with tiers := rename_tier name new st.tiers } else st

/-- tier_config_terminal, engine/storage/tier_config.h:137-144. -/
def terminal (t : TierConfig) : Bool := t.partitions == -1 && t.size == -1 && t.events == -1 && t.duration == -1

/-- pipeline_alter_validate, pipeline.c:101-121. -/
def pipeline_validate : List TierConfig → Res Unit
  | t :: u :: l =>
    if t.name = u.name then .err "pipeline: tier is duplicated"
    else if terminal t then .err "pipeline: tier is terminal and has no conditions"
    else pipeline_validate (u :: l)
  | _ => .ok ()

/-- pipeline_alter, pipeline.c:123-174, with tier_resolve (tier.h:48-58). -/
def pipeline_alter (st : St) (l : List TierConfig) : Res Unit × St :=
  match pipeline_validate l with
  | .ok _ =>
    if l.all fun t => (Settings.find st.storages t.name).isSome then (.ok (), save_tiers { st with tiers := l })
    else (.err "storage: not exists", st)
  | .err e => (.err e, st)
  | .abort e => (.abort e, st)
  | .ub e => (.ub e, st)

/-- The value of SET: execute_set, main/main/execute.c:139-173. -/
def value : Token → SetValue
  | .int n => .int n
  | .string s _ => .string (str s)
  | .keyword (.kw "true") _ => .bool true
  | .keyword (.kw "false") _ => .bool false
  | _ => .other

/-- `control_save_config()` after an operation that did not throw. -/
def saved (m : Machine) (r : Res Unit × St) : Res Unit × St :=
  match r with
  | (.ok _, st) => save m st
  | r => r

/-- One operation after another, unless it throws. -/
def andThen (r : Res Unit × St) (f : St → Res Unit × St) : Res Unit × St :=
  match r with
  | (.ok _, st) => f st
  | r => r

/-- What main_execute does (execute.c:111-179, 251-363): other commands do nothing to
the configuration.  Of `Outside`, `save` and `tier` are not used. -/
def command (m : Machine) (st : St) (c : Cmd) (o : Settings.Outside) : Res Unit × St :=
  match c with
  | .set n v =>
    match execute_set true (.ok ()) st.cfg (str n) (value v) with
    | (.ok _, cfg) =>
      match find cfg (str n) with
      | some w => if w.is 16 then (.ok (), { st with cfg := cfg }) else save m { st with cfg := cfg }
      | none => (.ok (), { st with cfg := cfg })
    | (r, cfg) => (r, { st with cfg := cfg })
  | .cloudCreate ine c => saved m (cloud_create st c ine)
  | .cloudDrop ie n => saved m (cloud_drop st (str n) ie)
  | .cloudRename ie n n' =>
    saved m (andThen (cloud_rename st (str n) (str n') ie) fun st => (.ok (), rename_cloud st (str n) (str n')))
  | .cloudAlter ie _ c mask => saved m (cloud_alter st c mask ie)
  | .storageCreate ine c => saved m (through st (Settings.storage_create (view st) c ine o))
  | .storageDrop ie n =>
    saved m (through st (Settings.storage_drop (view st) (str n) ie { o with tier := tiered st (str n) }))
  | .storageRename ie n n' =>
    saved m (andThen (through st (Settings.storage_rename (view st) (str n) (str n') ie))
      fun st => (.ok (), pipeline_rename st (str n) (str n')))
  | .storageAlter ie _ c mask => saved m (through st (Settings.storage_alter (view st) c mask ie o))
  | .pipelineAlter l => saved m (pipeline_alter st l)
  | _ => (.ok (), st)

/-- What the parser takes from the configuration (parse_storage.c:182-191,
parse_partition.c:40) and from the random generator. -/
def envOf (cfg : List Var) (uuid : Uuid) (key : Bytes) : Res Env :=
  match find cfg (Decode.cstr "interval"), find cfg (Decode.cstr "compression"), find cfg (Decode.cstr "compression_level") with
  | some i, some c, some l => .ok ⟨i.int, c.str, toS64 l.int, uuid, key⟩
  | _, _, _ => .ub "no such variable"

/-- A command from its text. -/
def execute (m : Machine) (st : St) (text : List Nat) (uuid : Uuid) (key : Bytes) (o : Settings.Outside) : Res Unit × St :=
  match (envOf st.cfg uuid key).bind fun env => parse env text with
  | .ok c => command m st c o
  | .err e => (.err e, st)
  | .abort e => (.abort e, st)
  | .ub e => (.ub e, st)

/-- The loop of cloud_mgr_open (cloud_mgr.c:96-104), storage_mgr_open
(storage_mgr.c:72-84) and pipeline_open (pipeline.c:79-93): `count` objects are read and
made. -/
def open_loop {α β : Type} (read : Bytes → Res (α × List Bytes × Bytes)) (make : α → Res β) :
    Nat → Bytes → Res (List β)
  | 0, _ => .ok []
  | n + 1, bs =>
    (read bs).bind fun r => (make r.1).bind fun b => (open_loop read make n r.2.2).bind fun l => .ok (b :: l)

/-- These functions: nothing to do when the variable is not set or null. -/
def open_list {α β : Type} (read : Bytes → Res (α × List Bytes × Bytes)) (make : α → Res β) (cfg : List Var) (name : Bytes) :
    Res (List β) :=
  match find cfg name with
  | none => .ub "no such variable"
  | some v =>
    match v.str with
    | [] => .ok []
    | t :: r =>
      if data_is_null t.toNat then .ok []
      else (data_read_array (t :: r)).bind fun (n, bs) => open_loop read make n.toNat bs

/-- storage_mgr_create_object, storage_mgr.c:138-154, without attaching. -/
def create_storage (clouds : List CloudConfig) (c : Source) : Res Settings.Storage :=
  (Settings.set_cloud (clouds.map (·.name)) c false).bind fun cloud => .ok ⟨c.copy, cloud, []⟩

/-- tier_resolve, tier.h:48-58. -/
def create_tier (storages : List Settings.Storage) (t : TierConfig) : Res TierConfig :=
  match Settings.find storages t.name with
  | none => .err "storage: not exists"
  | some _ => .ok t

/-- The source of storage_mgr_create_main, storage_mgr.c:87-114: uuid and compression
come from the configuration. -/
def main_source (cfg : List Var) : Res Source :=
  match find cfg (Decode.cstr "uuid"), find cfg (Decode.cstr "compression"), find cfg (Decode.cstr "compression_level") with
  | some u, some c, some l =>
    match Uuid.fromString ⟨0, 0⟩ (u.str.map (·.toNat)) with
    | none => .err "failed to parse uuid"
    | some uuid =>
      .ok (if c.str = [] then { Source.allocate with name := Decode.cstr "main", uuid := uuid }
        else { Source.allocate with
          name := Decode.cstr "main", uuid := uuid, compression := c.str, compression_level := wrapS32 (toS64 l.int) })
  | _, _, _ => .ub "no such variable"

/-- storage_mgr_create_main with storage_mgr_create, storage_mgr.c:87-114, 186-208. -/
def create_main (st : St) : Res St :=
  (main_source st.cfg).bind fun c =>
    match Settings.find st.storages c.name with
    | some _ => .ok st
    | none => .ok (save_storages { st with storages := st.storages ++ [⟨c.copy, none, []⟩] })

/-- main_start, main/main/main.c:211-256, as far as the configuration goes: main_deploy
with config_open (main.c:114-173), cloud_mgr_open (cloud_mgr.c:85-105), engine_open
(engine/engine/engine.c:50-63).  `fresh` are the variables as they were set before, with
`uuid` and `directory` set, and `file` is the text of config.json if there is one. -/
def boot (m : Machine) (fresh : List Var) (file : Option Bytes) : Res St :=
  (open_ m.fp m.fmt m.depth fresh ⟨file, none⟩).bind fun (cfg, files) =>
  match files.cur with
  | none => .ub "no file"
  | some text =>
    (open_list CloudConfig.read create_object cfg (Decode.cstr "clouds")).bind fun clouds =>
    (open_list Source.read (create_storage clouds) cfg (Decode.cstr "storages")).bind fun storages =>
    (create_main ⟨cfg, clouds, storages, [], text⟩).bind fun st =>
    (open_list TierConfig.read (create_tier st.storages) st.cfg (Decode.cstr "pipeline")).bind fun tiers =>
    .ok { st with tiers := tiers }

/-- The variables at the first start: defaults with the uuid of main_deploy,
main.c:122-131. -/
def first (uuid : Uuid) : List Var :=
  prepare.map fun v => if v.name = Decode.cstr "uuid" then { v with str := uuid.text.map UInt8.ofNat } else v

/-- What happens to an environment: a command, partitions appearing and disappearing
anywhere, closing and opening. -/
inductive Op where
  | execute (text : List Nat) (uuid : Uuid) (key : Bytes) (o : Settings.Outside)
  | partitions (f : Bytes → List Nat)
  | restart (fresh : List Var)

/-- One step; an environment that does not open is gone. -/
def step (m : Machine) (st : St) : Op → Option St
  | .execute text uuid key o => some (execute m st text uuid key o).2
  | .partitions f => some { st with storages := st.storages.map fun s => { s with parts := f s.source.name } }
  | .restart fresh => match boot m fresh (some st.text) with
    | .ok st => some st
    | _ => none

/-- Steps in order. -/
def run (m : Machine) : St → List Op → Option St
  | st, [] => some st
  | st, op :: ops => (step m st op).bind fun st => run m st ops

end Verif.Reopen
