import Verif.Model.Config
import Verif.Model.Heap
import Verif.Model.Index
import Verif.Model.Mapping
import Verif.Model.Parse

/-! Model of SHOW: execute_show in main/main/execute.c, engine/engine/engine_show.c
and the functions that describe memory, log, clouds, storages, partitions,
pipeline and configuration.  Locks are left out (see C59): what is shown is
taken from one state. -/
namespace Verif
namespace Show
open Data Decode

/-- `struct Part`, engine/io/part.h:18-35, as far as it is shown: `pages_a` and
`pages_b` are the `list_count` of the two memtables' heaps, `source` says which
storage's `Source` the pointer `part->source` is. -/
structure Part where
  min : Nat
  max : Nat
  state : Nat
  index : Io.Index
  count_a : Nat
  count_b : Nat
  pages_a : Nat
  pages_b : Nat
  time_create : Nat
  time_refresh : Nat
  source : Nat

/-- `struct Storage`, engine/storage/storage.h:18-28: `uid` stands for the
address of its source, `parts` are the addresses in `list`. -/
structure Storage where
  uid : Nat
  source : Source
  parts : List Nat

/-- What SHOW looks at: `self->main`.  `wal` is the list of log files
(engine/wal/wal_id.h:18-24), `part` the memory of the partitions, `map` the
mapping with partition addresses. -/
structure World where
  mem : Mm
  vars : List Config.Var
  wal : List Nat
  clouds : List CloudConfig
  storages : List Storage
  part : Nat → Part
  map : Mapping Nat
  tiers : List TierConfig

/-- encode_integer, runtime/lib/encode.h:78-83: the parameter is `uint64_t`. -/
def encode_integer (x : Int) : Bytes := data_write_integer (wrapU64 x)

/-- encode_raw of a literal name. -/
def key (k : String) : Bytes := data_write_raw (cstr k)

/-- memory_mgr_show, runtime/lib/memory_mgr.h:195-251: the counters are copied to
`int`. -/
def memory_mgr_show (m : Mm) : Bytes :=
  data_write_map 9 ++ (
  key "pages" ++ (encode_integer (wrapS32 m.count) ++ (
  key "pages_used" ++ (encode_integer (wrapS32 (m.count - m.freeCount)) ++ (
  key "pages_free" ++ (encode_integer (wrapS32 m.freeCount) ++ (
  key "page_size" ++ (encode_integer (wrapS32 (m.pageSize + 16)) ++ (
  key "limit" ++ (data_write_bool m.limit ++ (
  key "limit_wm" ++ (encode_integer m.limitWm ++ (
  key "limit_behaviour" ++ ((if m.limitError then key "error" else key "block") ++ (
  key "limit_hits" ++ (encode_integer m.hits ++ (
  key "cache" ++ encode_integer m.cache)))))))))))))))))

/-- `var_int_of(&config()->name)`: the variables are members of the
configuration, so there always is one. -/
def var_int (w : World) (name : String) : Res Nat :=
  match Config.find w.vars (cstr name) with
  | some v => .ok v.int
  | none => .ub "no such member"

/-- wal_id_stats, engine/wal/wal_id.h:142-159: the smallest id. -/
def wal_id_min (ids : List Nat) : Nat :=
  match ids with
  | [] => 18446744073709551615
  | id :: _ => id

/-- wal_show, engine/wal/wal.c:241-285. -/
def wal_show (w : World) : Res Bytes :=
  (var_int w "wal").bind fun active =>
  (var_int w "wal_rotate_wm").bind fun rotate_wm =>
  (var_int w "wal_sync_on_rotate").bind fun sync_on_rotate =>
  (var_int w "wal_sync_on_write").bind fun sync_on_write =>
  (var_int w "wal_crc").bind fun crc =>
  (var_int w "lsn").bind fun lsn =>
  .ok (data_write_map 8 ++ (
  key "active" ++ (data_write_bool (active ≠ 0) ++ (
  key "rotate_wm" ++ (encode_integer rotate_wm ++ (
  key "sync_on_rotate" ++ (data_write_bool (sync_on_rotate ≠ 0) ++ (
  key "sync_on_write" ++ (data_write_bool (sync_on_write ≠ 0) ++ (
  key "crc" ++ (data_write_bool (crc ≠ 0) ++ (
  key "lsn" ++ (encode_integer lsn ++ (
  key "lsn_min" ++ (encode_integer (wal_id_min w.wal) ++ (
  key "files" ++ encode_integer w.wal.length))))))))))))))))

/-- cloud_config_write, cloud/cloud/cloud_config.h:136-172. -/
def cloud_config_write (c : CloudConfig) (safe : Bool) : Bytes :=
  data_write_map 6 ++ (
  key "name" ++ (data_write_raw c.name ++ (
  key "type" ++ (data_write_raw c.type ++ (
  key "login" ++ (data_write_raw c.login ++ (
  key "password" ++ ((if ! safe then data_write_raw c.password else key "(secret)") ++ (
  key "url" ++ (data_write_raw c.url ++ (
  key "debug" ++ data_write_bool c.debug)))))))))))

/-- cloud_mgr_find, cloud/cloud/cloud_mgr.c:215-225. -/
def cloud_mgr_find : List CloudConfig → Bytes → Option CloudConfig
  | [], _ => none
  | c :: l, name => if c.name = name then some c else cloud_mgr_find l name

/-- cloud_mgr_show, cloud/cloud/cloud_mgr.c:189-214. -/
def cloud_mgr_show (clouds : List CloudConfig) (name : Option Bytes) : Res Bytes :=
  match name with
  | none => .ok (data_write_map clouds.length ++
      clouds.flatMap fun c => data_write_raw c.name ++ cloud_config_write c true)
  | some name =>
    match cloud_mgr_find clouds name with
    | none => .err "cloud: not exists"
    | some c => .ok (cloud_config_write c true)

/-- source_write, cloud/cloud/source.h:215-286. -/
def source_write (s : Source) (safe debug : Bool) : Bytes :=
  (if safe then data_write_map 12 else data_write_map 13) ++ (
  key "uuid" ++ ((if ! debug then data_write_raw (s.uuid.text.map UInt8.ofNat) else key "(filtered)") ++ (
  key "name" ++ (data_write_raw s.name ++ (
  key "path" ++ (data_write_raw s.path ++ (
  key "cloud" ++ (data_write_raw s.cloud ++ (
  key "cloud_drop_local" ++ (data_write_bool s.cloud_drop_local ++ (
  key "sync" ++ (data_write_bool s.sync ++ (
  key "crc" ++ (data_write_bool s.crc ++ (
  key "refresh_wm" ++ (encode_integer s.refresh_wm ++ (
  key "region_size" ++ (encode_integer s.region_size ++ (
  key "compression" ++ (data_write_raw s.compression ++ (
  key "compression_level" ++ (encode_integer s.compression_level ++ (
  key "encryption" ++ (data_write_raw s.encryption ++
  (if ! safe then key "encryption_key" ++ data_write_raw s.encryption_key else [])))))))))))))))))))))))))

/-- `struct Stats`, engine/io/stats.h:18-31. -/
structure Stats where
  partitions : Nat
  partitions_local : Nat
  partitions_cloud : Nat
  regions : Nat
  min : Nat
  max : Nat
  events : Nat
  events_heap : Nat
  size : Nat
  size_uncompressed : Nat
  size_heap : Nat

/-- stats_init, engine/io/stats.h:33-39. -/
def stats_init : Stats :=
  { partitions := 0, partitions_local := 0, partitions_cloud := 0, regions := 0,
    min := 18446744073709551615, max := 0, events := 0, events_heap := 0, size := 0,
    size_uncompressed := 0, size_heap := 0 }

/-- part_has, engine/io/part.h:60-64, of ID (1) and ID_CLOUD (8),
cloud/cloud/id.h:18-25. -/
def part_has (p : Part) (mask : Nat) : Bool := p.state &&& mask > 0

/-- heap_used, runtime/lib/heap.h:49-54. -/
def heap_used (m : Mm) (pages : Nat) : Nat := wrapU64 (pages * (m.pageSize + 16))

/-- stats_add, engine/io/stats.h:41-77; sums of `uint64_t`. -/
def stats_add (m : Mm) (s : Stats) (p : Part) : Stats :=
  let heap := wrapU64 (p.count_a + p.count_b)
  let s :=
    { s with
      partitions := wrapU64 (s.partitions + 1)
      partitions_local := if part_has p 1 then wrapU64 (s.partitions_local + 1) else s.partitions_local
      partitions_cloud := if part_has p 8 then wrapU64 (s.partitions_cloud + 1) else s.partitions_cloud
      min := if p.min < s.min then p.min else s.min
      max := if p.max > s.max then p.max else s.max }
  let s :=
    if p.state ≠ 0 then
      { s with
        regions := wrapU64 (s.regions + p.index.regions)
        events := wrapU64 (s.events + p.index.events) }
    else s
  let s :=
    { s with
      events_heap := wrapU64 (s.events_heap + heap)
      events := wrapU64 (s.events + heap) }
  let s :=
    if p.state ≠ 0 then
      { s with
        size := wrapU64 (s.size + p.index.size_total)
        size_uncompressed := wrapU64 (s.size_uncompressed + p.index.size_total_origin) }
    else s
  { s with
    size_heap := wrapU64 (s.size_heap + wrapU64 (heap_used m p.pages_a + heap_used m p.pages_b)) }

/-- stats_show, engine/io/stats.h:79-127. -/
def stats_show (s : Stats) : Bytes :=
  data_write_map 11 ++ (
  key "min" ++ (encode_integer (if s.partitions = 0 then 0 else s.min) ++ (
  key "max" ++ (encode_integer s.max ++ (
  key "partitions" ++ (encode_integer s.partitions ++ (
  key "partitions_local" ++ (encode_integer s.partitions_local ++ (
  key "partitions_cloud" ++ (encode_integer s.partitions_cloud ++ (
  key "regions" ++ (encode_integer s.regions ++ (
  key "events" ++ (encode_integer s.events ++ (
  key "events_heap" ++ (encode_integer s.events_heap ++ (
  key "size" ++ (encode_integer s.size ++ (
  key "size_uncompressed" ++ (encode_integer s.size_uncompressed ++ (
  key "size_heap" ++ encode_integer s.size_heap)))))))))))))))))))))

/-- The part of stats_show_part for `debug`, engine/io/stats.h:205-268. -/
def index_show (p : Part) : Bytes :=
  if p.state ≠ 0 then
    data_write_map 12 ++ (
    key "size" ++ (encode_integer p.index.size ++ (
    key "size_origin" ++ (encode_integer p.index.size_origin ++ (
    key "size_regions" ++ (encode_integer p.index.size_regions ++ (
    key "size_regions_origin" ++ (encode_integer p.index.size_regions_origin ++ (
    key "size_total" ++ (encode_integer p.index.size_total ++ (
    key "size_total_origin" ++ (encode_integer p.index.size_total_origin ++ (
    key "regions" ++ (encode_integer p.index.regions ++ (
    key "events" ++ (encode_integer p.index.events ++ (
    key "refreshes" ++ (encode_integer p.index.refreshes ++ (
    key "lsn" ++ (encode_integer p.index.lsn ++ (
    key "compression" ++ (encode_integer p.index.compression ++ (
    key "encryption" ++ encode_integer p.index.encryption)))))))))))))))))))))))
  else data_write_null

/-- `part->source`: the source of the storage it belongs to. -/
def source_of : List Storage → Nat → Res Source
  | [], _ => .ub "source of a storage that is gone"
  | s :: l, uid => if s.uid = uid then .ok s.source else source_of l uid

/-- stats_show_part, engine/io/stats.h:129-270. -/
def stats_show_part (w : World) (p : Part) (debug : Bool) : Res Bytes :=
  let s := stats_add w.mem stats_init p
  (source_of w.storages p.source).bind fun source =>
  .ok ((if debug then data_write_map 15 else data_write_map 14) ++ (
  key "min" ++ (encode_integer p.min ++ (
  key "max" ++ (encode_integer p.max ++ (
  key "events" ++ (encode_integer s.events ++ (
  key "events_heap" ++ (encode_integer s.events_heap ++ (
  key "regions" ++ (encode_integer s.regions ++ (
  key "size" ++ (encode_integer s.size ++ (
  key "size_uncompressed" ++ (encode_integer s.size_uncompressed ++ (
  key "size_heap" ++ (encode_integer s.size_heap ++ (
  key "created" ++ ((if debug then key "(filtered)" else encode_integer p.time_create) ++ (
  key "refreshed" ++ ((if debug then key "(filtered)" else encode_integer p.time_refresh) ++ (
  key "refreshes" ++ (encode_integer p.index.refreshes ++ (
  key "on_storage" ++ (data_write_bool (part_has p 1) ++ (
  key "on_cloud" ++ (data_write_bool (part_has p 8) ++ (
  key "storage" ++ (data_write_raw source.name ++
  (if debug then key "index" ++ index_show p else []))))))))))))))))))))))))))))))

/-- storage_show, engine/storage/storage.h:134-156. -/
def storage_show (w : World) (s : Storage) (debug : Bool) : Bytes :=
  let stats := s.parts.foldl (fun st a => stats_add w.mem st (w.part a)) stats_init
  data_write_map 2 ++ (
  key "config" ++ (source_write s.source true debug ++ (
  key "stats" ++ stats_show stats)))

/-- storage_mgr_show, engine/storage/storage_mgr.c:371-382. -/
def storage_mgr_show (w : World) (debug : Bool) : Bytes :=
  data_write_map w.storages.length ++
    w.storages.flatMap fun s => data_write_raw s.source.name ++ storage_show w s debug

/-- storage_mgr_find, engine/storage/storage_mgr.c:384-394. -/
def storage_mgr_find : List Storage → Bytes → Option Storage
  | [], _ => none
  | s :: l, name => if s.source.name = name then some s else storage_mgr_find l name

/-- engine_show_partition, engine/engine/engine_show.c:38-46. -/
def engine_show_partition (w : World) (min : Nat) (debug : Bool) : Res Bytes :=
  (w.map.match min).bind fun
    | none => .err "partition: not exists"
    | some x => stats_show_part w (w.part x.v.val) debug

/-- The loop of engine_show_partitions, engine_show.c:58-71: the count and what
is written. -/
def show_parts (w : World) (storage : Option Storage) (debug : Bool) : List (Slice Nat) → Res (Nat × Bytes)
  | [] => .ok (0, [])
  | s :: l =>
    let part := w.part s.val
    if (match storage with
        | some st => part.source != st.uid
        | none => false) then show_parts w storage debug l
    else (stats_show_part w part debug).bind fun b =>
      (show_parts w storage debug l).bind fun (n, bs) => .ok (n + 1, b ++ bs)

/-- engine_show_partitions, engine_show.c:48-76: mapping_min and mapping_next;
the count is written over the header at the end. -/
def engine_show_partitions (w : World) (storage : Option Storage) (debug : Bool) : Res Bytes :=
  let slices := if w.map.count = 0 then [] else Rb.forward w.map.count w.map.tree
  (show_parts w storage debug slices).bind fun (n, bs) => .ok (data_write_array32 n ++ bs)

/-- ENGINE_SHOW_*, engine/engine/engine_show.h. -/
inductive EngineOp where
  | storages | partition | partitions
deriving Repr, DecidableEq

/-- engine_show, engine_show.c:78-116. -/
def engine_show (w : World) (op : EngineOp) (storage_name : Option Bytes) (min : Nat) (debug : Bool) : Res Bytes :=
  let run (storage : Option Storage) : Res Bytes :=
    match op with
    | .storages =>
      match storage with
      | some s => .ok (storage_show w s debug)
      | none => .ok (storage_mgr_show w debug)
    | .partition => engine_show_partition w min debug
    | .partitions => engine_show_partitions w storage debug
  match storage_name with
  | none => run none
  | some name =>
    match storage_mgr_find w.storages name with
    | none => .err "storage: not exists"
    | some s => run (some s)

/-- pipeline_show, engine/storage/pipeline.c:180-190. -/
def pipeline_show (tiers : List TierConfig) : Bytes :=
  data_write_array tiers.length ++ tiers.flatMap TierConfig.write

/-- Variables that config_add counts in `count_visible`, runtime/config/config.c:37. -/
def visible (v : Config.Var) : Bool := ! (v.is 8 || v.is 4)

/-- config_show, runtime/config/config.c:306-318. -/
def config_show (vars : List Config.Var) : Bytes :=
  data_write_map (vars.filter visible).length ++
    vars.flatMap fun v => if v.is 4 || v.is 8 then [] else data_write_raw v.name ++ Config.encode v

/-- `op->name.id == KNAME`, main/main/execute.c:39-41. -/
def name_of : Token → Option Bytes
  | .name s => some (s.map UInt8.ofNat)
  | _ => none

/-- `op->name.string`. -/
def string_of : Token → Res Bytes
  | .name s => .ok (s.map UInt8.ofNat)
  | .string s _ => .ok (s.map UInt8.ofNat)
  | .keyword _ s => .ok (s.map UInt8.ofNat)
  | _ => .ub "not a string"

/-- execute_show_op, main/main/execute.c:26-88.  The token holds a union; what
is read of it for SHOW PARTITION is an integer, for SHOW_NAME a string (names,
strings and keywords have one). -/
def execute_show_op (w : World) (op : Parse.ShowOp) : Res Bytes :=
  match op.type with
  | .memory => .ok (memory_mgr_show w.mem)
  | .wal => wal_show w
  | .clouds => cloud_mgr_show w.clouds (name_of op.name)
  | .storages => engine_show w .storages (name_of op.name) 18446744073709551615 op.debug
  | .partition =>
    match op.name with
    | .int n => engine_show w .partition none (wrapU64 n) op.debug
    | _ => .ub "not an integer"
  | .partitions => engine_show w .partitions (name_of op.name) 18446744073709551615 op.debug
  | .pipeline => .ok (pipeline_show w.tiers)
  | .config => .ok (config_show w.vars)
  | .name =>
    (string_of op.name).bind fun name =>
    match Config.find w.vars name with
    | none => .err "SHOW name: not found"
    | some v => if v.is 8 then .err "SHOW name: not found" else .ok (Config.encode v)

/-- The loop of execute_show, main/main/execute.c:100-104. -/
def execute_show_ops (w : World) : List Parse.ShowOp → Res Bytes
  | [] => .ok []
  | op :: l => (execute_show_op w op).bind fun b => (execute_show_ops w l).bind fun bs => .ok (b ++ bs)

/-- execute_show, main/main/execute.c:90-109; `fmt` prints doubles, `depth` is
the stack left for json_export_pretty. -/
def execute_show (fmt : Nat → Bytes) (depth : Nat) (w : World) (ops : List Parse.ShowOp) : Res Bytes :=
  (execute_show_ops w ops).bind fun bs =>
  Json.export_pretty fmt depth ((if ops.length > 1 then data_write_array ops.length else []) ++ bs)

end Show
end Verif
