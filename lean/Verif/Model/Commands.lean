import Verif.Model.Parse

/-! Model of the commands on partitions, from their text to what they do to
partitions: main/main/execute.c and engine/engine/op.c.  One thread, and reading and
writing files and clouds succeeds (C27, C41, C59, C75 are about what happens else).
The map of partitions is a list in ascending order (C03 has the tree); that a refresh
merges file and table is C14, here it puts them together. -/
namespace Verif

/-- `struct Storage`, engine/storage/storage.h:18-28: its name, whether it has a cloud,
and cloud_drop_local of its source. -/
structure Home where
  name : List Nat
  cloud : Bool
  drop_local : Bool
deriving Repr, DecidableEq

/-- `struct Part`, engine/io/part.h:18-35.  `onDisk` and `onCloud` are ID and ID_CLOUD in
`state`; `file` are the events of its file, `mem` those of its tables.  The pointer
`cloud` is that of the storage, storage_add, storage.h:88-94. -/
structure Piece where
  min : Nat
  max : Nat
  home : List Nat
  onDisk : Bool
  onCloud : Bool
  file : List Nat
  mem : List Nat
deriving Repr, DecidableEq

/-- The storages and the partitions. -/
structure Store where
  homes : List Home
  parts : List Piece
deriving Repr, DecidableEq

/-- How an operation ends: it returns (most return nothing, then the value is not
looked at), or throws, or is undefined; `other` for commands that are not about
partitions. -/
inductive Reply
  | ok (s : Store) (b : Bool)
  | error (s : Store) (m : String)
  | ub (m : String)
  | other
deriving Repr, DecidableEq

/-- What follows an operation that returns. -/
def Reply.andThen : Reply → (Store → Bool → Reply) → Reply
  | .ok s b, f => f s b
  | r, _ => r

namespace Store

/-- engine_lock without `gte` and without creation, engine/engine/engine.c:129-137. -/
def find (s : Store) (id : Nat) : Option Piece := s.parts.find? fun p => decide (p.min ≤ id ∧ id ≤ p.max)

/-- engine_lock with `gte`, engine.c:120-126; mapping_gte, engine/io/mapping.h:139-148. -/
def gte (s : Store) (id : Nat) : Option Piece := s.parts.find? fun p => decide (id ≤ p.max)

/-- storage_mgr_find, engine/storage/storage_mgr.c:383-394. -/
def home (s : Store) (name : List Nat) : Option Home := s.homes.find? fun h => decide (h.name = name)

/-- A partition is changed. -/
def put (s : Store) (p : Piece) : Store := { s with parts := s.parts.map fun q => if q.min = p.min then p else q }

/-- mapping_remove, engine/engine/op.c:264. -/
def remove (s : Store) (p : Piece) : Store := { s with parts := s.parts.filter fun q => decide (q.min ≠ p.min) }

/-- The bit ID of a mask, cloud/cloud/id.h:18-26. -/
def hasId (mask : Nat) : Bool := mask &&& 1 != 0

/-- The bit ID_CLOUD. -/
def hasCloud (mask : Nat) : Bool := mask &&& 8 != 0

/-- engine_drop_file, op.c:164-237.  part_offload from a cloud without a cloud,
engine/io/part.c:209, is undefined. -/
def drop_file (s : Store) (min : Nat) (if_exists drop_local : Bool) (mask : Nat) : Reply :=
  match s.find min with
  | none => if if_exists then .ok s false else .error s "drop: partition not found"
  | some p =>
    match s.home p.home with
    | none => .ub "storage"
    | some h =>
      if drop_local && (!h.drop_local || !p.onCloud) then .ok s false
      else if hasCloud mask && p.onCloud && !h.cloud then .ub "part_offload: cloud"
      else
        let p := if hasCloud mask then { p with onCloud := false } else p
        let p := if hasId mask then { p with onDisk := false } else p
        let p := if p.onDisk || p.onCloud then p else { p with file := [] }
        .ok (s.put p) true

/-- engine_drop_reference, op.c:239-288. -/
def drop_reference (s : Store) (min : Nat) : Reply :=
  match s.find min with
  | none => .ok s true
  | some p => if p.onDisk || p.onCloud then .ok s false else .ok (s.remove p) true

/-- The loop of engine_drop, op.c:296-308, at most so many times. -/
def drop_loop : Nat → Store → Nat → Bool → Nat → Reply
  | 0, _, _, _, _ => .ub "engine_drop: endless"
  | n + 1, s, min, if_exists, mask =>
    (s.drop_file min if_exists false mask).andThen fun s exists_ =>
      if !exists_ then .ok s true
      else (s.drop_reference min).andThen fun s gone => if gone then .ok s true else drop_loop n s min if_exists mask

/-- engine_drop, op.c:290-315; ID|ID_CLOUD is 9. -/
def drop (s : Store) (min : Nat) (if_exists : Bool) (mask : Nat) : Reply :=
  if mask = 9 then drop_loop 2 s min if_exists mask
  else s.drop_file min if_exists false mask

/-- engine_download, op.c:325-384. -/
def download (s : Store) (min : Nat) (if_exists if_cloud : Bool) : Reply :=
  match s.find min with
  | none => if if_exists then .ok s true else .error s "download: partition not found"
  | some p =>
    match s.home p.home with
    | none => .ub "storage"
    | some h =>
      if !h.cloud then if if_cloud then .ok s true else .error s "download: partition has no associated cloud"
      else if p.onDisk then .ok s true
      else if !p.onCloud then .ok s true
      else .ok (s.put { p with onDisk := true }) true

/-- engine_upload, op.c:394-454. -/
def upload (s : Store) (min : Nat) (if_exists if_cloud : Bool) : Reply :=
  match s.find min with
  | none => if if_exists then .ok s true else .error s "upload: partition not found"
  | some p =>
    match s.home p.home with
    | none => .ub "storage"
    | some h =>
      if !h.cloud then if if_cloud then .ok s true else .error s "upload: partition storage has no associated cloud"
      else if p.onCloud then .ok s true
      else if !p.onDisk then .error s "upload: partition file does not exist locally"
      else .ok (s.put { p with onCloud := true }) true

/-- refresh_run, engine/engine/refresh.c:201-237: refresh_begin, 55-118, then
refresh_merge, refresh_apply and refresh_end. -/
def refresh_run (s : Store) (min : Nat) (storage : Option (List Nat)) (if_exists : Bool) : Reply :=
  match s.find min with
  | none => if if_exists then .ok s false else .error s "refresh: partition not found"
  | some p =>
    if p.onCloud then .error s "refresh: partition must be dropped from the cloud first"
    else
      match storage with
      | none => .ok (s.put { p with onDisk := true, file := p.file ++ p.mem, mem := [] }) true
      | some name =>
        match s.home name with
        | none => .error s "refresh: storage not found"
        | some h =>
          if h.name = p.home then .ok s false
          else .ok (s.put { p with home := h.name, onDisk := true, file := p.file ++ p.mem, mem := [] }) true

/-- engine_refresh, op.c:465-483. -/
def refresh (s : Store) (min : Nat) (storage : Option (List Nat)) (if_exists : Bool) : Reply :=
  (s.download min if_exists true).andThen fun s _ =>
  (s.drop min if_exists 8).andThen fun s _ =>
  (s.refresh_run min storage if_exists).andThen fun s _ =>
  (s.upload min true true).andThen fun s _ =>
  s.drop_file min if_exists true 1

/-- engine_foreach, op.c:145-162: where the partition starts, and the next position. -/
def foreach (s : Store) (min max : Nat) : Option (Nat × Nat) :=
  match s.gte min with
  | none => none
  | some p => if min ≤ p.min ∧ p.max ≤ max then some (p.min, wrapU64 (p.max + 1 : Nat)) else none

/-- The loop of engine_drop_range, engine_download_range, engine_upload_range and
engine_refresh_range, op.c:317-323, 386-392, 456-462 and 485-492, at most so many
times: twice the number of partitions and once more is enough to see that it does not end. -/
def range (act : Store → Nat → Reply) : Nat → Store → Nat → Nat → Reply
  | 0, _, _, _ => .ub "range: endless"
  | n + 1, s, min, max =>
    match s.foreach min max with
    | none => .ok s true
    | some (m, next) => (act s m).andThen fun s _ => range act n s next max

/-- engine_drop_range, op.c:317-323. -/
def drop_range (s : Store) (min max mask : Nat) : Reply :=
  range (fun s m => s.drop m true mask) (2 * s.parts.length + 1) s min max

/-- engine_download_range, op.c:386-392. -/
def download_range (s : Store) (min max : Nat) (if_cloud : Bool) : Reply :=
  range (fun s m => s.download m true if_cloud) (2 * s.parts.length + 1) s min max

/-- engine_upload_range, op.c:456-462. -/
def upload_range (s : Store) (min max : Nat) (if_cloud : Bool) : Reply :=
  range (fun s m => s.upload m true if_cloud) (2 * s.parts.length + 1) s min max

/-- engine_refresh_range, op.c:485-492. -/
def refresh_range (s : Store) (min max : Nat) (storage : Option (List Nat)) : Reply :=
  range (fun s m => s.refresh m storage true) (2 * s.parts.length + 1) s min max

end Store

namespace Execute
open Parse

/-- EXECUTE_LOCK_*, main/main/execute.h. -/
inductive Lock
  | none | shared | exclusive
deriving Repr, DecidableEq

/-- The functions of execute.c:26-504. -/
inductive Function
  | null | show | set | debug | checkpoint | service | rebalance
  | cloud_create | cloud_drop | cloud_alter
  | storage_create | storage_drop | storage_alter | pipeline_alter
  | partition_create | partition_drop | partition_drop_range | partition_move | partition_move_range
  | partition_refresh | partition_refresh_range | partition_download | partition_download_range
  | partition_upload | partition_upload_range
deriving Repr, DecidableEq

/-- CmdType, main/command/cmd.h:20-47, as the parsers give it to cmd_allocate. -/
def type : Cmd → Nat
  | .empty => 0
  | .show _ => 1
  | .set _ _ => 2
  | .debug _ => 3
  | .checkpoint => 4
  | .service => 5
  | .rebalance => 6
  | .cloudCreate _ _ => 7
  | .cloudDrop _ _ => 8
  | .cloudRename _ _ _ => 9
  | .cloudAlter _ _ _ _ => 9
  | .storageCreate _ _ => 10
  | .storageDrop _ _ => 11
  | .storageRename _ _ _ => 12
  | .storageAlter _ _ _ _ => 12
  | .pipelineAlter _ => 13
  | .partition p =>
    match p.type with
    | .create => 14
    | .drop => 15
    | .dropRange => 16
    | .move => 17
    | .moveRange => 18
    | .refresh => 19
    | .refreshRange => 20
    | .download => 21
    | .downloadRange => 22
    | .upload => 23
    | .uploadRange => 24

/-- `cmds`, execute.c:506-533. -/
def cmds : List (Function × Lock) :=
  [(.null, .none), (.show, .shared), (.set, .exclusive), (.debug, .none), (.checkpoint, .none), (.service, .none),
   (.rebalance, .none), (.cloud_create, .exclusive), (.cloud_drop, .exclusive), (.cloud_alter, .exclusive),
   (.storage_create, .exclusive), (.storage_drop, .exclusive), (.storage_alter, .exclusive), (.pipeline_alter, .exclusive),
   (.partition_create, .none), (.partition_drop, .none), (.partition_drop_range, .none), (.partition_move, .none),
   (.partition_move_range, .none), (.partition_refresh, .none), (.partition_refresh_range, .none),
   (.partition_download, .none), (.partition_download_range, .none), (.partition_upload, .none),
   (.partition_upload_range, .none)]

/-- execute_partition_*, execute.c:369-504, each with the operation it calls; CREATE is
the subject of C04. -/
def partition (s : Store) (c : Partition) : Function → Reply
  | .partition_drop => s.drop c.min c.ifExists c.mask
  | .partition_drop_range => s.drop_range c.min c.max c.mask
  | .partition_move => s.refresh c.min (some c.storage) c.ifExists
  | .partition_move_range => s.refresh_range c.min c.max (some c.storage)
  | .partition_refresh => s.refresh c.min none c.ifExists
  | .partition_refresh_range => s.refresh_range c.min c.max none
  | .partition_download => s.download c.min c.ifExists c.ifCloud
  | .partition_download_range => s.download_range c.min c.max c.ifCloud
  | .partition_upload => s.upload c.min c.ifExists c.ifCloud
  | .partition_upload_range => s.upload_range c.min c.max c.ifCloud
  | _ => .other

/-- main_execute, execute.c:535-590: the text is parsed, `cmds` has the function for the
type of the command. -/
def main_execute (env : Env) (s : Store) (text : List Nat) : Reply :=
  match parse env text with
  | .ok cmd =>
    match cmds[type cmd]? with
    | none => .ub "cmds"
    | some f =>
      match cmd with
      | .partition c => partition s c f.1
      | _ => .other
  | .err m => .error s m
  | .abort m => .ub m
  | .ub m => .ub m

/-- The control lock that main_execute holds meanwhile, execute.c:549-560. -/
def lock (cmd : Cmd) : Option Lock := (cmds[type cmd]?).map (·.2)

end Execute
end Verif
