import Verif.Model.Decode

/-!
Model of engine/storage (storage.h, storage_mgr.c, tier.h, pipeline.c),
cloud/cloud/cloud_mgr.c, of the parts of engine/engine/op.c and refresh.c that
place partitions on storages (create, refresh, drop, rebalance), and of the
commands on clouds, storages and the pipeline (main/main/execute.c).

Pointers to storages and clouds are numbers (`uid`) that are never reused.
Lists keep the order of the C lists.  A partition is identified by its minimum
and is in the list of one storage, the one whose `source` it has.  Memory tables
and file contents are not part of this model.
-/
namespace Verif.Sto

/-- `part->state`, a mask of the flags of cloud/cloud/id.h:15-23. -/
structure State where
  id : Bool := false
  incomplete : Bool := false
  complete : Bool := false
  cloud : Bool := false
  cloudIncomplete : Bool := false
deriving Repr, DecidableEq

/-- `state == ID_NONE`. -/
def State.isNone (s : State) : Bool := s = {}

/-- `struct Part`, engine/io/part.h:18-35: `size` is `index.size_regions`,
`events` is `index.events`. -/
structure Part where
  min : Nat
  state : State := {}
  size : Nat := 0
  events : Nat := 0
  timeCreate : Nat := 0
  refresh : Bool := false
deriving Repr, DecidableEq

/-- `struct Storage`, engine/storage/storage.h:18-28.  Of `source` only the name,
the name of the cloud and `cloud_drop_local`. -/
structure Storage where
  uid : Nat
  name : Bytes
  cloudName : Bytes := []
  cloudDropLocal : Bool := false
  cloud : Option Nat := none
  refs : Int := 0
  listCount : Int := 0
  size : Int := 0
  events : Int := 0
  parts : List Part := []
deriving Repr, DecidableEq

/-- storage_add_metrics, storage.h:69-76.  Adding a `uint64_t` to an `int64_t`
wraps around. -/
def addMetrics (s : Storage) (p : Part) : Storage :=
  if p.state.isNone then s
  else { s with size := wrapS64 (s.size + p.size), events := wrapS64 (s.events + p.events) }

/-- storage_remove_metrics, storage.h:78-85. -/
def removeMetrics (s : Storage) (p : Part) : Storage :=
  if p.state.isNone then s
  else { s with size := wrapS64 (s.size - p.size), events := wrapS64 (s.events - p.events) }

/-- storage_add, storage.h:87-94. -/
def storage_add (s : Storage) (p : Part) : Storage :=
  addMetrics { s with parts := s.parts ++ [p], listCount := s.listCount + 1 } p

/-- storage_remove, storage.h:96-104. -/
def storage_remove (s : Storage) (p : Part) : Storage :=
  removeMetrics { s with parts := s.parts.filter (fun q => q.min ≠ p.min), listCount := s.listCount - 1 } p

/-- The loop of storage_oldest, storage.h:118-132. -/
def oldestFrom : Option Part → List Part → Option Part
  | m, [] => m
  | none, p :: l => oldestFrom (some p) l
  | some m, p :: l => oldestFrom (if p.timeCreate < m.timeCreate then some p else some m) l

/-- storage_oldest, storage.h:118-132. -/
def oldest (s : Storage) : Option Part := oldestFrom none s.parts

/-- `struct TierConfig`, engine/storage/tier_config.h:18-26; -1 is "not set". -/
structure TierConfig where
  name : Bytes
  partitions : Int := -1
  size : Int := -1
  events : Int := -1
  duration : Int := -1
deriving Repr, DecidableEq

/-- `struct Tier`, engine/storage/tier.h:18-23. -/
structure Tier where
  storage : Nat
  config : TierConfig
deriving Repr, DecidableEq

/-- `struct Cloud`, cloud/cloud/cloud.h:29-35. -/
structure Cloud where
  uid : Nat
  name : Bytes
  refs : Int := 0
deriving Repr, DecidableEq

/-- The variables `clouds`, `storages` and `pipeline` of the configuration
(cloud_mgr_save, storage_mgr_save, pipeline_save): of a storage its name and the
name of its cloud. -/
structure Vars where
  clouds : List Bytes := []
  storages : List (Bytes × Bytes) := []
  tiers : List TierConfig := []
deriving Repr, DecidableEq

/-- The parts of `struct Main` and `struct Engine` in this model.  `file` is the
configuration file's copy of the variables. -/
structure Db where
  clouds : List Cloud := []
  storages : List Storage := []
  tiers : List Tier := []
  vars : Vars := {}
  file : Vars := {}
  next : Nat := 0
deriving Repr, DecidableEq

/-- Change the storage behind a pointer. -/
def onStorage (db : Db) (uid : Nat) (f : Storage → Storage) : Db :=
  { db with storages := db.storages.map fun s => if s.uid = uid then f s else s }

/-- Change the cloud behind a pointer. -/
def onCloud (db : Db) (uid : Nat) (f : Cloud → Cloud) : Db :=
  { db with clouds := db.clouds.map fun c => if c.uid = uid then f c else c }

/-- storage_mgr_find, engine/storage/storage_mgr.c:384-394. -/
def findStorage (db : Db) (name : Bytes) : Option Storage := db.storages.find? fun s => s.name == name

/-- cloud_mgr_find, cloud/cloud/cloud_mgr.c:215-225. -/
def findCloud (db : Db) (name : Bytes) : Option Cloud := db.clouds.find? fun c => c.name == name

/-! Partitions. -/

/-- The storage that has a partition, and the partition (the mapping and
`part->source`). -/
def findPart (db : Db) (min : Nat) : Option (Storage × Part) :=
  db.storages.findSome? fun s => (s.parts.find? fun p => p.min == min).map fun p => (s, p)

/-- Change a partition in the list of a storage. -/
def setPart (s : Storage) (p : Part) : Storage :=
  { s with parts := s.parts.map fun q => if q.min = p.min then p else q }

/-- engine_create, engine/engine/op.c:25-66: a new partition on the first tier's
storage, or on the first storage. -/
def create (db : Db) (min now : Nat) : Res Db :=
  let p : Part := { min := min, timeCreate := now }
  match db.tiers, db.storages with
  | t :: _, _ => .ok (onStorage db t.storage fun s => storage_add s p)
  | [], s :: _ => .ok (onStorage db s.uid fun s => storage_add s p)
  | [], [] => .ub "storage_mgr_first: no storage"

/-- refresh_begin, engine/engine/refresh.c:55-118, as far as storages are
concerned: the partition, its storage and the target storage as pointers; none
if there is nothing to do. -/
def refreshBegin (db : Db) (min : Nat) (target : Option Bytes) : Res (Option (Part × Nat × Nat)) :=
  match findPart db min with
  | none => .ok none
  | some (origin, p) =>
    if p.state.cloud then .err "refresh: partition must be dropped from the cloud first"
    else
      match target with
      | none => .ok (some (p, origin.uid, origin.uid))
      | some name =>
        match findStorage db name with
        | none => .err "refresh: storage not found"
        | some storage => if storage.uid = origin.uid then .ok none else .ok (some (p, origin.uid, storage.uid))

/-- The storage behind a pointer; the pointer of a storage that has been dropped
is dangling. -/
def deref (db : Db) (uid : Nat) : Res Storage :=
  match db.storages.find? fun s => s.uid == uid with
  | none => .ub "storage freed"
  | some s => .ok s

/-- refresh_apply, engine/engine/refresh.c:134-166: the partition is replaced by
one with a new file of the given size and number of events.  merger_execute
(engine/io/merger.c:116-121) has given it the state ID_INCOMPLETE and the old
creation time. -/
def refreshApply (db : Db) (p : Part) (origin storage : Nat) (size events : Nat) : Res Db :=
  (deref db origin).bind fun _ =>
  (deref db storage).bind fun _ =>
    let part : Part :=
      { min := p.min, state := { incomplete := true }, size := size, events := events, timeCreate := p.timeCreate }
    let db := onStorage db origin fun s => storage_remove s p
    let db := onStorage db storage fun s => storage_add s part
    .ok (onStorage db storage fun s => setPart s { part with state := { id := true } })

/-- refresh_run, engine/engine/refresh.c:201-237, when nothing happens in between;
`fails` is a failure of merger_execute. -/
def refresh (db : Db) (min : Nat) (target : Option Bytes) (size events : Nat) (fails : Bool) : Res Db :=
  (refreshBegin db min target).bind fun
    | none => .ok db
    | some (p, origin, storage) => if fails then .err "refresh" else refreshApply db p origin storage size events

/-- engine_drop_file, engine/engine/op.c:164-237: drop the file on the cloud
(`cloud`) or on the storage (`local_`); `auto` is the argument
`cloud_drop_local`; `failCloud` and `failLocal` are failures of part_offload.
The metrics are removed after the state has become ID_NONE. -/
def dropFile (db : Db) (min : Nat) (auto cloud local_ failCloud failLocal : Bool) : Db :=
  match findPart db min with
  | none => db
  | some (s, p) =>
    if auto && (! s.cloudDropLocal || ! p.state.cloud) then db
    else if cloud && p.state.cloud && failCloud then db
    else
      let p1 := if cloud && p.state.cloud then { p with state := { p.state with cloud := false } } else p
      if local_ && p1.state.id && failLocal then onStorage db s.uid fun s => setPart s p1
      else
        let p2 := if local_ && p1.state.id then { p1 with state := { p1.state with id := false } } else p1
        if p2.state.isNone then
          onStorage db s.uid fun s => setPart (removeMetrics s p2) { p2 with size := 0, events := 0 }
        else onStorage db s.uid fun s => setPart s p2

/-- engine_drop_reference, engine/engine/op.c:239-288. -/
def dropRef (db : Db) (min : Nat) : Db :=
  match findPart db min with
  | none => db
  | some (s, p) => if p.state.isNone then onStorage db s.uid fun s => storage_remove s p else db

/-- engine_drop of a whole partition, engine/engine/op.c:290-315, when nothing
fails: the retry loop runs once. -/
def drop (db : Db) (min : Nat) : Db := dropRef (dropFile db min false true true false false) min

/-- engine_download, engine/engine/op.c:325-384 (`fails` is a failure of
part_download). -/
def download (db : Db) (min : Nat) (fails : Bool) : Db :=
  match findPart db min with
  | none => db
  | some (s, p) =>
    if s.cloud.isNone || p.state.id || ! p.state.cloud || fails then db
    else onStorage db s.uid fun s => setPart s { p with state := { p.state with id := true } }

/-- engine_upload, engine/engine/op.c:394-454 (`fails` is a failure of
part_upload). -/
def upload (db : Db) (min : Nat) (fails : Bool) : Db :=
  match findPart db min with
  | none => db
  | some (s, p) =>
    if s.cloud.isNone || p.state.cloud || ! p.state.id || fails then db
    else onStorage db s.uid fun s => setPart s { p with state := { p.state with cloud := true } }

/-- A file group found in the directory of a storage. -/
structure Found where
  min : Nat
  state : State
  size : Nat
  events : Nat
  timeCreate : Nat
deriving Repr, DecidableEq

/-- engine_recover for one storage, engine/engine/engine_recover.c:64-251: the
partitions are added with the state ID_NONE and an empty index; those that
engine_recover_validate drops (`keep` is false) are removed again, the others
get their state (`valid`); then their files are opened and the metrics added. -/
def recoverStorage (s : Storage) (found : List Found) (keep : Found → Bool) (valid : Found → State) : Storage :=
  let s := found.foldl (fun s f => storage_add s { min := f.min }) s
  let s := found.foldl (fun s f => setPart s { min := f.min, state := f.state }) s
  let s := (found.filter fun f => ! keep f).foldl (fun s f => storage_remove s { min := f.min, state := f.state }) s
  (found.filter keep).foldl (fun s f =>
    let p : Part := { min := f.min, state := valid f, size := f.size, events := f.events, timeCreate := f.timeCreate }
    addMetrics (setPart s p) p) s

/-- `struct Stats` as far as stats_add, engine/io/stats.h:41-77, fills it from
the partition list: partitions, partitions_local, partitions_cloud and the
events in files. -/
structure Stats where
  partitions : Nat := 0
  local_ : Nat := 0
  cloud : Nat := 0
  events : Nat := 0
deriving Repr, DecidableEq

/-- stats_add, engine/io/stats.h:41-77. -/
def stats_add (st : Stats) (p : Part) : Stats :=
  { partitions := st.partitions + 1
    local_ := if p.state.id then st.local_ + 1 else st.local_
    cloud := if p.state.cloud then st.cloud + 1 else st.cloud
    events := if p.state.isNone then st.events else wrapU64 (st.events + p.events) }

/-- storage_show, engine/storage/storage.h:134-156. -/
def storage_show (s : Storage) : Stats := s.parts.foldl stats_add {}

/-! Rebalancing. -/

/-- engine_rebalance_tier_next, engine/engine/op.c:494-524; `now` is time_us(). -/
def tierNext (s : Storage) (c : TierConfig) (now : Nat) : Option Part :=
  if c.partitions ≥ 0 ∧ s.listCount > c.partitions then oldest s
  else if c.size ≥ 0 ∧ s.size > c.size then oldest s
  else if c.events ≥ 0 ∧ s.events > c.events then oldest s
  else if c.duration ≥ 0 then
    match oldest s with
    | none => none
    | some p => if wrapU64 ((now : Int) - p.timeCreate) ≥ wrapU64 c.duration then some p else none
  else none

/-- engine_rebalance_tier and the loop of engine_rebalance_next,
engine/engine/op.c:526-576: the partition chosen, its storage and the name of
the storage to move it to (empty: drop it).  `storage` is the string that the
loop passes on: it keeps the name that an earlier tier has put there.
`str_copy` to a string that is in use loses the old one (a leak). -/
def rebalanceFrom (db : Db) (now : Nat) : List Tier → Bytes → Res (Option (Nat × Part × Bytes))
  | [], _ => .ok none
  | t :: rest, storage =>
    match db.storages.find? (fun s => s.uid == t.storage) with
    | none => .ub "tier: storage freed"
    | some s =>
      match tierNext s t.config now with
      | none => rebalanceFrom db now rest storage
      | some p =>
        match (match rest with
          | [] => some storage
          | n :: _ => (db.storages.find? fun s => s.uid == n.storage).map fun s => s.name) with
        | none => .ub "tier: storage freed"
        | some storage => if p.refresh then rebalanceFrom db now rest storage else .ok (some (s.uid, p, storage))

/-- engine_rebalance_next, engine/engine/op.c:544-576: what to do next, and the
mark on the partition. -/
def rebalanceNext (db : Db) (now : Nat) : Res (Option (Nat × Bytes) × Db) :=
  (rebalanceFrom db now db.tiers []).bind fun
    | none => .ok (none, db)
    | some (uid, p, storage) =>
      .ok (some (p.min, storage), onStorage db uid fun s => setPart s { p with refresh := true })

/-- engine_rebalance, engine/engine/op.c:578-594, without clouds (engine_refresh,
op.c:464-483, is refresh_run then).  `file` gives size and number of events of
the new file of a partition; `fuel` bounds the number of turns. -/
def rebalance (file : Part → Nat × Nat) (now : Nat) : Nat → Db → Res Db
  | 0, _ => .ub "fuel"
  | fuel + 1, db =>
    (rebalanceNext db now).bind fun
      | (none, db) => .ok db
      | (some (min, storage), db) =>
        if storage = [] then rebalance file now fuel (drop db min)
        else
          match findPart db min with
          | none => rebalance file now fuel db
          | some (_, p) =>
            (refresh db min (some storage) (file p).1 (file p).2 false).bind fun db => rebalance file now fuel db

/-! Commands on clouds, storages and the pipeline.  A command returns its outcome
and the state, which an error may leave changed. -/

/-- cloud_mgr_save, cloud/cloud/cloud_mgr.c:50-66. -/
def saveClouds (db : Db) : Db := { db with vars := { db.vars with clouds := db.clouds.map (·.name) } }

/-- storage_mgr_save, engine/storage/storage_mgr.c:40-57. -/
def saveStorages (db : Db) : Db :=
  { db with vars := { db.vars with storages := db.storages.map fun s => (s.name, s.cloudName) } }

/-- pipeline_save, engine/storage/pipeline.c:48-65. -/
def savePipeline (db : Db) : Db := { db with vars := { db.vars with tiers := db.tiers.map (·.config) } }

/-- control_save_config at the end of a command; it may fail (`saveFails`). -/
def saveConfig (saveFails : Bool) (db : Db) : Res Unit × Db :=
  if saveFails then (.err "config_save", db) else (.ok (), { db with file := db.vars })

/-- cloud_mgr_create, cloud_mgr.c:107-124; `known` tells if the type is known. -/
def cloud_create (db : Db) (name : Bytes) (known ifNotExists : Bool) : Res Unit × Db :=
  match findCloud db name with
  | some _ => if ifNotExists then (.ok (), db) else (.err "cloud: already exists", db)
  | none =>
    if ! known then (.err "cloud: unknown cloud type", db)
    else (.ok (), saveClouds { db with clouds := db.clouds ++ [{ uid := db.next, name := name }], next := db.next + 1 })

/-- cloud_mgr_drop, cloud_mgr.c:126-148. -/
def cloud_drop (db : Db) (name : Bytes) (ifExists : Bool) : Res Unit × Db :=
  match findCloud db name with
  | none => if ifExists then (.ok (), db) else (.err "cloud: not exists", db)
  | some c =>
    if c.refs > 0 then (.err "cloud: has dependencies", db)
    else (.ok (), saveClouds { db with clouds := db.clouds.filter fun x => x.uid ≠ c.uid })

/-- cloud_mgr_rename, cloud_mgr.c:167-187. -/
def cloud_rename (db : Db) (name new : Bytes) (ifExists : Bool) : Res Unit × Db :=
  match findCloud db name with
  | none => if ifExists then (.ok (), db) else (.err "cloud: not exists", db)
  | some c =>
    match findCloud db new with
    | some _ => (.err "cloud: already exists", db)
    | none => (.ok (), saveClouds (onCloud db c.uid fun c => { c with name := new }))

/-- storage_mgr_rename_cloud, storage_mgr.c:358-369. -/
def storage_rename_cloud (db : Db) (name new : Bytes) : Db :=
  saveStorages
    { db with storages := db.storages.map fun s => if s.cloudName = name then { s with cloudName := new } else s }

/-- storage_set_cloud, storage_mgr.c:116-136, for the storage `uid`;
`attachFails` is a failure of cloud_attach (`attach` is set in all commands). -/
def storage_set_cloud (db : Db) (uid : Nat) (cloudName : Bytes) (attachFails : Bool) : Res Unit × Db :=
  if cloudName = [] then (.ok (), db)
  else
    match findCloud db cloudName with
    | none => (.err "storage: cloud not exists", db)
    | some c =>
      if attachFails then (.err "cloud_attach", db)
      else (.ok (), onCloud (onStorage db uid fun s => { s with cloud := some c.uid }) c.uid fun c => { c with refs := c.refs + 1 })

/-- storage_mgr_create, storage_mgr.c:186-208, with storage_mgr_create_object,
storage_mgr.c:138-154, which frees the storage on an error. -/
def storage_create (db : Db) (name cloudName : Bytes) (ifNotExists mkdirFails attachFails : Bool) : Res Unit × Db :=
  match findStorage db name with
  | some _ => if ifNotExists then (.ok (), db) else (.err "storage: already exists", db)
  | none =>
    if mkdirFails then (.err "mkdir", db)
    else
      match storage_set_cloud
        { db with
          storages := db.storages ++ [{ uid := db.next, name := name, cloudName := cloudName }]
          next := db.next + 1 } db.next cloudName attachFails with
      | (.ok _, db') => (.ok (), saveStorages db')
      | (e, _) => (e, db)

/-- storage_mgr_drop, storage_mgr.c:210-245; storage_free releases the cloud. -/
def storage_drop (db : Db) (name : Bytes) (ifExists detachFails : Bool) : Res Unit × Db :=
  if name = Decode.cstr "main" then (.err "storage: main storage cannot be dropped", db)
  else
    match findStorage db name with
    | none => if ifExists then (.ok (), db) else (.err "storage: not exists", db)
    | some s =>
      if s.refs > 0 then (.err "storage: has dependencies", db)
      else if s.listCount > 0 then (.err "storage: has partitions", db)
      else
        let db1 := { db with storages := db.storages.filter fun x => x.uid ≠ s.uid }
        match s.cloud with
        | none => (.ok (), saveStorages db1)
        | some c =>
          if detachFails then (.err "cloud_detach", db)
          else (.ok (), saveStorages (onCloud db1 c fun c => { c with refs := c.refs - 1 }))

/-- storage_mgr_alter, storage_mgr.c:247-330: `cloud` is the new cloud if the
mask has SOURCE_CLOUD; `needsEmpty` tells if the mask has one of the options that
need an empty storage (crc, path, encryption).  The other options are not in this
model.  The new cloud name is stored and saved before the cloud is looked up. -/
def storage_alter (db : Db) (name : Bytes) (cloud : Option Bytes) (needsEmpty ifExists mkdirFails detachFails attachFails : Bool) :
    Res Unit × Db :=
  match findStorage db name with
  | none => if ifExists then (.ok (), db) else (.err "storage: not exists", db)
  | some s =>
    if needsEmpty && s.listCount ≠ 0 then (.err "storage: storage is not empty", db)
    else if needsEmpty && mkdirFails then (.err "mkdir", db)
    else
      match cloud with
      | none => (.ok (), saveStorages db)
      | some cloudName =>
        if s.parts.any fun p => p.state.cloud then
          (.err "storage: some partitions are still remain on the cloud", db)
        else if s.cloud.isSome && detachFails then (.err "cloud_detach", db)
        else
          let db := saveStorages (onStorage db s.uid fun s => { s with cloudName := cloudName })
          let db := match s.cloud with
            | none => db
            | some c => onCloud (onStorage db s.uid fun s => { s with cloud := none }) c fun c => { c with refs := c.refs - 1 }
          storage_set_cloud db s.uid cloudName attachFails

/-- storage_mgr_rename, storage_mgr.c:332-356. -/
def storage_rename (db : Db) (name new : Bytes) (ifExists : Bool) : Res Unit × Db :=
  if name = Decode.cstr "main" then (.err "storage: main storage cannot be renamed", db)
  else
    match findStorage db name with
    | none => if ifExists then (.ok (), db) else (.err "storage: not exists", db)
    | some s =>
      match findStorage db new with
      | some _ => (.err "storage: already exists", db)
      | none => (.ok (), saveStorages (onStorage db s.uid fun s => { s with name := new }))

/-- The loop of pipeline_rename, engine/storage/pipeline.c:165-178: the first
tier with the name. -/
def renameFirst (name new : Bytes) : List Tier → List Tier
  | [] => []
  | t :: l =>
    if t.config.name = name then { t with config := { t.config with name := new } } :: l
    else t :: renameFirst name new l

/-- pipeline_rename, pipeline.c:165-178. -/
def pipeline_rename (db : Db) (name new : Bytes) : Db :=
  if db.tiers.any fun t => t.config.name = name then savePipeline { db with tiers := renameFirst name new db.tiers }
  else db

/-- tier_config_terminal, tier_config.h:137-144. -/
def terminal (c : TierConfig) : Bool := c.partitions = -1 && c.size = -1 && c.events = -1 && c.duration = -1

/-- pipeline_alter_validate, pipeline.c:101-121. -/
def alterValidate : List TierConfig → Res Unit
  | c :: n :: l =>
    if c.name = n.name then .err "pipeline: tier is duplicated"
    else if terminal c then .err "pipeline: tier is terminal and has no conditions"
    else alterValidate (n :: l)
  | _ => .ok ()

/-- The loop of pipeline_alter with tier_resolve, pipeline.c:131-150 and
tier.h:47-57: a pointer for every name. -/
def resolve (db : Db) : List TierConfig → Option (List Tier)
  | [] => some []
  | c :: l =>
    match findStorage db c.name with
    | none => none
    | some s => (resolve db l).map fun ts => { storage := s.uid, config := c } :: ts

/-- storage_ref or storage_unref for every tier of a list. -/
def countRefs (db : Db) (tiers : List Tier) (n : Int) : Db :=
  tiers.foldl (fun db t => onStorage db t.storage fun s => { s with refs := s.refs + n }) db

/-- pipeline_alter, pipeline.c:123-163.  On an error the references taken are
released again. -/
def pipeline_alter (db : Db) (configs : List TierConfig) : Res Unit × Db :=
  match alterValidate configs with
  | .ok _ =>
    match resolve db configs with
    | none => (.err "storage: not exists", db)
    | some ts => (.ok (), savePipeline { countRefs (countRefs db ts 1) db.tiers (-1) with tiers := ts })
  | e => (e, db)

/-- The commands (main/main/execute.c:251-367). -/
inductive Cmd where
  | cloudCreate (name : Bytes) (known ifNotExists : Bool)
  | cloudDrop (name : Bytes) (ifExists : Bool)
  | cloudRename (name new : Bytes) (ifExists : Bool)
  | storageCreate (name cloud : Bytes) (ifNotExists mkdirFails attachFails : Bool)
  | storageDrop (name : Bytes) (ifExists detachFails : Bool)
  | storageAlter (name : Bytes) (cloud : Option Bytes) (needsEmpty ifExists mkdirFails detachFails attachFails : Bool)
  | storageRename (name new : Bytes) (ifExists : Bool)
  | pipelineAlter (configs : List TierConfig)
deriving Repr, DecidableEq

/-- A step of a command after one that succeeded. -/
def andThen (r : Res Unit × Db) (f : Db → Res Unit × Db) : Res Unit × Db :=
  match r with
  | (.ok _, db) => f db
  | r => r

/-- A command (main/main/execute.c:251-367); the configuration file is rewritten
when it succeeds. -/
def execute (saveFails : Bool) (db : Db) (c : Cmd) : Res Unit × Db :=
  andThen
    (match c with
    | .cloudCreate n k i => cloud_create db n k i
    | .cloudDrop n i => cloud_drop db n i
    | .cloudRename n m i => andThen (cloud_rename db n m i) fun db => (.ok (), storage_rename_cloud db n m)
    | .storageCreate n c i mf af => storage_create db n c i mf af
    | .storageDrop n i df => storage_drop db n i df
    | .storageAlter n c e i mf df af => storage_alter db n c e i mf df af
    | .storageRename n m i => andThen (storage_rename db n m i) fun db => (.ok (), pipeline_rename db n m)
    | .pipelineAlter cs => pipeline_alter db cs)
    (saveConfig saveFails)

/-! Opening. -/

/-- The loop of cloud_mgr_open, cloud_mgr.c:84-105 (the types were known when the
clouds were created). -/
def openClouds : Nat → List Bytes → List Cloud
  | _, [] => []
  | uid, n :: l => { uid := uid, name := n } :: openClouds (uid + 1) l

/-- The loop of storage_mgr_open, storage_mgr.c:62-85: no attach. -/
def openStorages (db : Db) : List (Bytes × Bytes) → Res Db
  | [] => .ok db
  | (name, cloudName) :: l =>
    match storage_set_cloud
      { db with
        storages := db.storages ++ [{ uid := db.next, name := name, cloudName := cloudName }]
        next := db.next + 1 } db.next cloudName false with
    | (.ok _, db) => openStorages db l
    | (.err m, _) => .err m
    | (.abort m, _) => .abort m
    | (.ub m, _) => .ub m

/-- The loop of pipeline_open, pipeline.c:67-92. -/
def openTiers (db : Db) : List TierConfig → Res Db
  | [] => .ok db
  | c :: l =>
    match findStorage db c.name with
    | none => .err "storage: not exists"
    | some s =>
      openTiers (onStorage { db with tiers := db.tiers ++ [{ storage := s.uid, config := c }] } s.uid
        fun s => { s with refs := s.refs + 1 }) l

/-- main_start up to pipeline_open, main/main/main.c:231-235 and engine_open,
engine/engine/engine.c:50-58: clouds, storages, the main storage, pipeline. -/
def open_ (v : Vars) : Res Db :=
  (openStorages { clouds := openClouds 0 v.clouds, vars := v, file := v, next := v.clouds.length } v.storages).bind fun db =>
  match storage_create db (Decode.cstr "main") [] true false false with
  | (.ok _, db) => openTiers db v.tiers
  | (.err m, _) => .err m
  | (.abort m, _) => .abort m
  | (.ub m, _) => .ub m

/-- Some commands, one after the other, each with its failure of
control_save_config. -/
def executeAll (db : Db) : List (Bool × Cmd) → Db
  | [] => db
  | (f, c) :: l => executeAll (execute f db c).2 l

end Verif.Sto
