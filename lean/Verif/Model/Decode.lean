import Verif.Model.Data
import Verif.Model.Uuid

/-! Model of runtime/lib/decode.h and of the three objects read with it:
cloud/cloud/source.h, cloud/cloud/cloud_config.h, engine/storage/tier_config.h. -/
namespace Verif
namespace Decode
open Data

/-- Text of a C string constant. -/
def cstr (s : String) : Bytes := s.toUTF8.data.toList

/-- The `value` pointer of `struct Decode` (decode.h:29-34) together with the
type given by `flags` (decode.h:18-27): how a value of that type is stored into
the object `α`. -/
inductive Target (α : Type) where
  | uuid (get : α → Uuid) (set : α → Uuid → α)
  | string (set : α → Bytes → α)
  | int (set : α → Int → α)
  | bool (set : α → Bool → α)
  | real (set : α → Nat → α)
  | null

/-- `struct Decode`, decode.h:29-34; DECODE_FOUND is kept apart (`found`). -/
structure Entry (α : Type) where
  target : Target α
  key : Bytes

/-- The switch of decode_map, decode.h:53-107: `data_is_*` on the next byte, then
the read.  The checks for DECODE_REAL and DECODE_NULL both ask for a bool
(decode.h:91, 99). -/
def readTarget {α : Type} (a : α) (bs : Bytes) : Target α → Res (α × Bytes)
  | .uuid get set =>
    match bs with
    | [] => .ub "read past the end of the buffer"
    | t :: _ =>
      if ¬ data_is_string t.toNat then .err "config: string expected"
      else (data_read_raw bs).bind fun (s, r) =>
        match Uuid.fromString (get a) (s.map (·.toNat)) with
        | none => .err "uuid: failed to parse uuid"
        | some u => .ok (set a u, r)
  | .string set =>
    match bs with
    | [] => .ub "read past the end of the buffer"
    | t :: _ =>
      if ¬ data_is_string t.toNat then .err "config: string expected"
      else (data_read_raw bs).bind fun (s, r) => .ok (set a s, r)
  | .int set =>
    match bs with
    | [] => .ub "read past the end of the buffer"
    | t :: _ =>
      if ¬ data_is_integer t.toNat then .err "config: integer expected"
      else (data_read_integer bs).bind fun (i, r) => .ok (set a i, r)
  | .bool set =>
    match bs with
    | [] => .ub "read past the end of the buffer"
    | t :: _ =>
      if ¬ data_is_bool t.toNat then .err "config: bool expected"
      else (data_read_bool bs).bind fun (b, r) => .ok (set a b, r)
  | .real set =>
    match bs with
    | [] => .ub "read past the end of the buffer"
    | t :: _ =>
      if ¬ data_is_bool t.toNat then .err "config: real expected"
      else (data_read_real bs).bind fun (d, r) => .ok (set a d, r)
  | .null =>
    match bs with
    | [] => .ub "read past the end of the buffer"
    | t :: _ =>
      if ¬ data_is_bool t.toNat then .err "config: null expected"
      else (data_read_null bs).bind fun r => .ok (a, r)

/-- What decode_map changes: the object, the DECODE_FOUND flags and the log. -/
structure St (α : Type) where
  obj : α
  found : List Bool
  log : List Bytes

/-- The search of decode_map for a key, decode.h:48-51: position and entry. -/
def lookup {α : Type} (key : Bytes) : List (Entry α) → Nat → Option (Nat × Entry α)
  | [], _ => none
  | e :: es, i => if e.key = key then some (i, e) else lookup key es (i + 1)

/-- The loop of decode_map over the map, decode.h:42-120. -/
def loop {α : Type} (table : List (Entry α)) : Nat → St α → Bytes → Res (St α × Bytes)
  | 0, st, bs => .ok (st, bs)
  | n + 1, st, bs =>
    (data_read_raw bs).bind fun (key, r) =>
      match lookup key table 0 with
      | some (i, e) =>
        (readTarget st.obj r e.target).bind fun (obj, r) =>
          loop table n { st with obj := obj, found := st.found.set i true } r
      | none =>
        (data_skip r).bind fun r => loop table n { st with log := st.log ++ [key] } r

/-- decode_map, decode.h:36-128. -/
def decode_map {α : Type} (table : List (Entry α)) (obj : α) (bs : Bytes) : Res (α × List Bytes × Bytes) :=
  (data_read_map bs).bind fun (count, r) =>
    (loop table count.toNat ⟨obj, List.replicate table.length false, []⟩ r).bind fun (st, r) =>
      if st.found.any (fun f => !f) then .err "config: key is not found"
      else .ok (st.obj, st.log, r)

end Decode

open Data Decode

/-- `struct Source`, cloud/cloud/source.h:35-50. -/
structure Source where
  uuid : Uuid
  name : Bytes
  path : Bytes
  cloud : Bytes
  cloud_drop_local : Bool
  sync : Bool
  crc : Bool
  refresh_wm : Int
  region_size : Int
  compression : Bytes
  compression_level : Int
  encryption : Bytes
  encryption_key : Bytes
deriving Repr, DecidableEq

namespace Source

/-- source_allocate, source.h:52-70. -/
def allocate : Source :=
  { uuid := ⟨0, 0⟩, name := [], path := [], cloud := [], cloud_drop_local := true, sync := true,
    crc := false, refresh_wm := 40 * 1024 * 1024, region_size := 128 * 1024, compression := [],
    compression_level := 0, encryption := [], encryption_key := [] }

/-- The table of source_read, source.h:194-210. -/
def table : List (Entry Source) :=
  [⟨.uuid (·.uuid) (fun s v => { s with uuid := v }), cstr "uuid"⟩,
   ⟨.string fun s v => { s with name := v }, cstr "name"⟩,
   ⟨.string fun s v => { s with path := v }, cstr "path"⟩,
   ⟨.string fun s v => { s with cloud := v }, cstr "cloud"⟩,
   ⟨.bool fun s v => { s with cloud_drop_local := v }, cstr "cloud_drop_local"⟩,
   ⟨.bool fun s v => { s with sync := v }, cstr "sync"⟩,
   ⟨.bool fun s v => { s with crc := v }, cstr "crc"⟩,
   ⟨.int fun s v => { s with refresh_wm := v }, cstr "refresh_wm"⟩,
   ⟨.int fun s v => { s with region_size := v }, cstr "region_size"⟩,
   ⟨.string fun s v => { s with compression := v }, cstr "compression"⟩,
   ⟨.int fun s v => { s with compression_level := v }, cstr "compression_level"⟩,
   ⟨.string fun s v => { s with encryption := v }, cstr "encryption"⟩,
   ⟨.string fun s v => { s with encryption_key := v }, cstr "encryption_key"⟩]

/-- source_read, source.h:189-213. -/
def read (bs : Bytes) : Res (Source × List Bytes × Bytes) := decode_map table allocate bs

/-- source_write with `safe` and `debug` false (how storages are saved), source.h:215-286. -/
def write (s : Source) : Bytes :=
  data_write_map 13 ++ (
  data_write_raw (cstr "uuid") ++ (data_write_raw (s.uuid.text.map UInt8.ofNat) ++ (
  data_write_raw (cstr "name") ++ (data_write_raw s.name ++ (
  data_write_raw (cstr "path") ++ (data_write_raw s.path ++ (
  data_write_raw (cstr "cloud") ++ (data_write_raw s.cloud ++ (
  data_write_raw (cstr "cloud_drop_local") ++ (data_write_bool s.cloud_drop_local ++ (
  data_write_raw (cstr "sync") ++ (data_write_bool s.sync ++ (
  data_write_raw (cstr "crc") ++ (data_write_bool s.crc ++ (
  data_write_raw (cstr "refresh_wm") ++ (data_write_integer (wrapU64 s.refresh_wm) ++ (
  data_write_raw (cstr "region_size") ++ (data_write_integer (wrapU64 s.region_size) ++ (
  data_write_raw (cstr "compression") ++ (data_write_raw s.compression ++ (
  data_write_raw (cstr "compression_level") ++ (data_write_integer (wrapU64 s.compression_level) ++ (
  data_write_raw (cstr "encryption") ++ (data_write_raw s.encryption ++ (
  data_write_raw (cstr "encryption_key") ++ data_write_raw s.encryption_key)))))))))))))))))))))))))

/-- source_copy, source.h:168-187: the `int` parameters of the setters for
refresh_wm, region_size and compression_level (source.h:129-139, 148-152) cut
the 64-bit values. -/
def copy (s : Source) : Source :=
  { s with
    refresh_wm := wrapS32 s.refresh_wm
    region_size := wrapS32 s.region_size
    compression_level := wrapS32 s.compression_level }

end Source

/-- `struct CloudConfig`, cloud/cloud/cloud_config.h:28-36. -/
structure CloudConfig where
  name : Bytes
  type : Bytes
  login : Bytes
  password : Bytes
  url : Bytes
  debug : Bool
deriving Repr, DecidableEq

namespace CloudConfig

/-- cloud_config_allocate, cloud_config.h:38-49. -/
def allocate : CloudConfig :=
  { name := [], type := [], login := [], password := [], url := [], debug := false }

/-- The table of cloud_config_read, cloud_config.h:122-131. -/
def table : List (Entry CloudConfig) :=
  [⟨.string fun s v => { s with name := v }, cstr "name"⟩,
   ⟨.string fun s v => { s with type := v }, cstr "type"⟩,
   ⟨.string fun s v => { s with login := v }, cstr "login"⟩,
   ⟨.string fun s v => { s with password := v }, cstr "password"⟩,
   ⟨.string fun s v => { s with url := v }, cstr "url"⟩,
   ⟨.bool fun s v => { s with debug := v }, cstr "debug"⟩]

/-- cloud_config_read, cloud_config.h:117-134. -/
def read (bs : Bytes) : Res (CloudConfig × List Bytes × Bytes) := decode_map table allocate bs

/-- cloud_config_write with `safe` false, cloud_config.h:136-172. -/
def write (s : CloudConfig) : Bytes :=
  data_write_map 6 ++ (
  data_write_raw (cstr "name") ++ (data_write_raw s.name ++ (
  data_write_raw (cstr "type") ++ (data_write_raw s.type ++ (
  data_write_raw (cstr "login") ++ (data_write_raw s.login ++ (
  data_write_raw (cstr "password") ++ (data_write_raw s.password ++ (
  data_write_raw (cstr "url") ++ (data_write_raw s.url ++ (
  data_write_raw (cstr "debug") ++ data_write_bool s.debug)))))))))))

end CloudConfig

/-- `struct TierConfig`, engine/storage/tier_config.h:18-26. -/
structure TierConfig where
  name : Bytes
  partitions : Int
  size : Int
  events : Int
  duration : Int
deriving Repr, DecidableEq

namespace TierConfig

/-- tier_config_allocate, tier_config.h:28-39. -/
def allocate : TierConfig := { name := [], partitions := -1, size := -1, events := -1, duration := -1 }

/-- The table of tier_config_read, tier_config.h:97-105. -/
def table : List (Entry TierConfig) :=
  [⟨.string fun s v => { s with name := v }, cstr "name"⟩,
   ⟨.int fun s v => { s with partitions := v }, cstr "partitions"⟩,
   ⟨.int fun s v => { s with size := v }, cstr "size"⟩,
   ⟨.int fun s v => { s with events := v }, cstr "events"⟩,
   ⟨.int fun s v => { s with duration := v }, cstr "duration"⟩]

/-- tier_config_read, tier_config.h:92-108. -/
def read (bs : Bytes) : Res (TierConfig × List Bytes × Bytes) := decode_map table allocate bs

/-- tier_config_write, tier_config.h:110-135. -/
def write (s : TierConfig) : Bytes :=
  data_write_map 5 ++ (
  data_write_raw (cstr "name") ++ (data_write_raw s.name ++ (
  data_write_raw (cstr "partitions") ++ (data_write_integer (wrapU64 s.partitions) ++ (
  data_write_raw (cstr "size") ++ (data_write_integer (wrapU64 s.size) ++ (
  data_write_raw (cstr "events") ++ (data_write_integer (wrapU64 s.events) ++ (
  data_write_raw (cstr "duration") ++ data_write_integer (wrapU64 s.duration))))))))))

end TierConfig
end Verif
