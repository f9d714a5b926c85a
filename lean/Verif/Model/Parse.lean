import Verif.Model.Lex
import Verif.Model.Decode

/-! Model of the command parser, main/command/parse.c and parse_*.c, on the
tokenizer of `Model/Lex.lean`.  A parser is a sequence of calls of the tokenizer
(`Prog`); memory management (guard, cmd_free) is left out. -/
namespace Verif.Parse
open Lex

/-- What a parser does: return, throw, or call lex_next, lex_if or lex_if_name
(lex.c:200, 362, 374) and go on with the result.  A failed lex_if also stores the
token it looked at; no parser uses it (parse_config.c:71 keeps it as a name, and
only a KNAME counts there, main/main/execute.c:62). -/
inductive Prog (α : Type) where
  | ret (a : α)
  | fail (msg : String)
  | next (k : Token → Prog α)
  | lexIf (p : Token → Bool) (k : Option Token → Prog α)
  | lexIfName (k : Option Token → Prog α)

/-- One parser after another. -/
def Prog.bind {α β : Type} : Prog α → (α → Prog β) → Prog β
  | .ret a, f => f a
  | .fail m, _ => .fail m
  | .next k, f => .next fun t => (k t).bind f
  | .lexIf p k, f => .lexIf p fun t => (k t).bind f
  | .lexIfName k, f => .lexIfName fun t => (k t).bind f

/-- A parser on the tokenizer. -/
def Prog.run {α : Type} : Prog α → Lex → Res (α × Lex)
  | .ret a, l => .ok (a, l)
  | .fail m, _ => .err m
  | .next k, l => (Lex.next l).bind fun r => (k r.1).run r.2
  | .lexIf p k, l => (Lex.lexIf p l).bind fun r => (k r.1).run r.2
  | .lexIfName k, l => (Lex.lexIfName l).bind fun r => (k r.1).run r.2

/-- `id == K...` for a keyword, KINT, KSTRING, KNAME, KEOF and a symbol
(lex.h:19-83). -/
def isKw (n : String) : Token → Bool
  | .keyword (.kw m) _ => m == n
  | _ => false

@[inherit_doc isKw] def isInt : Token → Bool
  | .int _ => true
  | _ => false

@[inherit_doc isKw] def isString : Token → Bool
  | .string _ _ => true
  | _ => false

@[inherit_doc isKw] def isName : Token → Bool
  | .name _ => true
  | _ => false

@[inherit_doc isKw] def isEof : Token → Bool
  | .eof => true
  | _ => false

@[inherit_doc isKw] def isSym (c : Nat) : Token → Bool
  | .symbol d => d == c
  | _ => false

/-- `lex_if(self, K, NULL)` as a condition. -/
def ifKw (n : String) : Prog Bool := .lexIf (isKw n) fun t => .ret t.isSome

/-- `if (! lex_if(self, K, NULL)) error(...)`. -/
def kw (n : String) : Prog Unit := .lexIf (isKw n) fun
  | some _ => .ret ()
  | none => .fail (n ++ " expected")

/-- `if (! lex_if(self, KINT, &tk)) error(...)`. -/
def int : Prog Nat := .lexIf isInt fun
  | some (.int n) => .ret n
  | _ => .fail "integer expected"

/-- `if (! lex_if(self, KNAME, &tk)) error(...)`. -/
def name : Prog (List Nat) := .lexIf isName fun
  | some (.name s) => .ret s
  | _ => .fail "name expected"

/-- `if (! lex_if(self, KSTRING, &tk)) error(...)`. -/
def string : Prog (List Nat) := .lexIf isString fun
  | some (.string s _) => .ret s
  | _ => .fail "string expected"

/-- A string of the command as a Str. -/
def str (s : List Nat) : Bytes := s.map UInt8.ofNat

/-- parse_if_not_exists, parse_misc.h:16-26. -/
def if_not_exists : Prog Bool :=
  (ifKw "if").bind fun
    | true => (kw "not").bind fun _ => (kw "exists").bind fun _ => .ret true
    | false => .ret false

/-- parse_if_exists, parse_misc.h:28-36. -/
def if_exists : Prog Bool :=
  (ifKw "if").bind fun
    | true => (kw "exists").bind fun _ => .ret true
    | false => .ret false

/-- parse_if_cloud, parse_misc.h:38-46. -/
def if_cloud : Prog Bool :=
  (ifKw "if").bind fun
    | true => (kw "cloud").bind fun _ => .ret true
    | false => .ret false

/-- A value of an option. -/
inductive Val where
  | string (s : List Nat)
  | bool (b : Bool)
  | int (i : Int)
deriving Repr, DecidableEq

/-- Which of parse_string, parse_uuid, parse_bool, parse_int reads the value. -/
inductive Kind where
  | string | bool | int
deriving Repr, DecidableEq

/-- parse_int, parse_bool, parse_string (and the reading part of parse_uuid),
parse_misc.h:48-100.  parse_int stores a uint64_t into an int64_t. -/
def value : Kind → Prog Val
  | .string => string.bind fun s => .ret (.string s)
  | .int => int.bind fun n => .ret (.int (toS64 n))
  | .bool => (ifKw "true").bind fun
    | true => .ret (.bool true)
    | false => (kw "false").bind fun _ => .ret (.bool false)

/-- One branch of a chain of `if (str_compare_raw(&name.string, ...))`: name, how
the value is read, what is done with it, and the bit of the mask. -/
structure Opt (σ : Type) where
  name : String
  kind : Kind
  set : σ → Val → Option σ
  bit : Nat

/-- The name of an option: a KNAME or one of the keywords that may be names,
parse_cloud.c:39-53, parse_storage.c:39-52 and parse_pipeline.c:74-86. -/
def optionName (words : List String) : Token → Option (List Nat)
  | .name s => some s
  | .keyword (.kw n) s => if words.contains n then some s else none
  | _ => none

/-- The loop over options: parse_cloud.c:37-111, parse_storage.c:37-161 and
parse_pipeline.c:72-122.  `words` are the keywords that may be names of options.
`fuel` bounds the rounds, each of which takes a token. -/
def optionLoop {σ : Type} (table : List (Opt σ)) (words : List String) : Nat → σ → Nat → Prog (σ × Nat)
  | 0, _, _ => .fail "fuel"
  | fuel + 1, c, mask => .next fun t =>
    match optionName words t with
    | none => .fail "'name' expected"
    | some s =>
      match table.find? fun o => bytes o.name == s with
      | none => .fail "unknown option"
      | some o => (value o.kind).bind fun v =>
        match o.set c v with
        | none => .fail "invalid value"
        | some c =>
          .lexIf (isSym 44) fun
            | some _ => optionLoop table words fuel c (mask ||| o.bit)
            | none => .lexIf (isSym 41) fun
              | some _ => .ret (c, mask ||| o.bit)
              | none => .fail "')' expected"

/-- parse_cloud_options and parse_storage_options, parse_cloud.c:25-114 and
parse_storage.c:25-164: the options may be missing altogether. -/
def options {σ : Type} (table : List (Opt σ)) (words : List String) (fuel : Nat) (c : σ) : Prog (σ × Nat) :=
  .lexIf (isSym 40) fun
    | none => .ret (c, 0)
    | some _ => .lexIf (isSym 41) fun
      | some _ => .ret (c, 0)
      | none => optionLoop table words fuel c 0

/-- Options of a cloud, parse_cloud.c:55-96; the bits of
cloud/cloud/cloud_config.h:18-26. -/
def cloudTable : List (Opt CloudConfig) :=
  let s (name : String) (f : CloudConfig → Bytes → CloudConfig) (bit : Nat) : Opt CloudConfig :=
    ⟨name, .string, fun c v => match v with | .string x => some (f c (str x)) | _ => none, bit⟩
  [s "type" (fun c x => { c with type := x }) 2,
   s "url" (fun c x => { c with url := x }) 16,
   s "login" (fun c x => { c with login := x }) 4,
   s "password" (fun c x => { c with password := x }) 8,
   s "access_key" (fun c x => { c with login := x }) 4,
   s "secret_key" (fun c x => { c with password := x }) 8,
   ⟨"debug", .bool, fun c v => match v with | .bool x => some { c with debug := x } | _ => none, 32⟩]

/-- compression_mgr_of, runtime/lib/compression_mgr.c:76-88: whether the name is
known. -/
def compressionKnown (s : List Nat) : Bool := s == [] || s == bytes "none" || s == bytes "zstd" || s == bytes "lz4"

/-- encryption_mgr_of, runtime/lib/encryption_mgr.c:60-70: -1, ENCRYPTION_NONE (0;
COMPRESSION_NONE is 0 too) or ENCRYPTION_AES. -/
def encryptionOf (s : Bytes) : Int :=
  if s = [] then 0 else if s = str (bytes "none") then 0 else if s = str (bytes "aes") then 1 else -1

/-- Options of a storage, parse_storage.c:54-150; the bits of
cloud/cloud/source.h:18-33. -/
def storageTable : List (Opt Source) :=
  let s (name : String) (f : Source → List Nat → Option Source) (bit : Nat) : Opt Source :=
    ⟨name, .string, fun c v => match v with | .string x => f c x | _ => none, bit⟩
  let b (name : String) (f : Source → Bool → Source) (bit : Nat) : Opt Source :=
    ⟨name, .bool, fun c v => match v with | .bool x => some (f c x) | _ => none, bit⟩
  let i (name : String) (f : Source → Int → Option Source) (bit : Nat) : Opt Source :=
    ⟨name, .int, fun c v => match v with | .int x => f c x | _ => none, bit⟩
  [s "uuid" (fun c x => (Uuid.fromString c.uuid x).map fun u => { c with uuid := u }) 1,
   s "path" (fun c x => some { c with path := str x }) 4,
   s "cloud" (fun c x => some { c with cloud := str x }) 8,
   b "cloud_drop_local" (fun c x => { c with cloud_drop_local := x }) 16,
   b "sync" (fun c x => { c with sync := x }) 32,
   b "crc" (fun c x => { c with crc := x }) 64,
   i "refresh_wm" (fun c x => some { c with refresh_wm := x }) 128,
   i "region_size" (fun c x => if x = 0 then none else some { c with region_size := x }) 256,
   s "compression" (fun c x => if compressionKnown x then some { c with compression := str x } else none) 512,
   i "compression_level" (fun c x => some { c with compression_level := x }) 1024,
   s "encryption" (fun c x => if encryptionOf (str x) = -1 then none else some { c with encryption := str x }) 2048,
   s "encryption_key" (fun c x => if x ≠ [] ∧ x.length ≠ 32 then none else some { c with encryption_key := str x }) 4096]

/-- Options of a tier, parse_pipeline.c:88-111 (no mask). -/
def tierTable : List (Opt TierConfig) :=
  let i (name : String) (f : TierConfig → Int → TierConfig) : Opt TierConfig :=
    ⟨name, .int, fun c v => match v with | .int x => some (f c x) | _ => none, 0⟩
  [i "partitions" fun c x => { c with partitions := x },
   i "size" fun c x => { c with size := x },
   i "events" fun c x => { c with events := x },
   i "duration" fun c x => { c with duration := x }]

/-- CmdType for partitions, cmd.h:36-46. -/
inductive PartCmd where
  | create | drop | dropRange | move | moveRange | refresh | refreshRange
  | download | downloadRange | upload | uploadRange
deriving Repr, DecidableEq

/-- SHOW_*, parse_config.h:20-31. -/
inductive ShowType where
  | memory | wal | clouds | storages | partition | partitions | pipeline | config | name
deriving Repr, DecidableEq

/-- CmdShowOp, parse_config.h:33-39. -/
structure ShowOp where
  type : ShowType
  name : Token
  debug : Bool
deriving Repr, DecidableEq

/-- CmdPartition, parse_partition.h:18-27. -/
structure Partition where
  type : PartCmd
  min : Nat
  max : Nat := 0
  ifExists : Bool := false
  ifCloud : Bool := false
  mask : Nat := 0
  storage : List Nat := []
deriving Repr, DecidableEq

/-- Cmd and what derives from it, cmd.h and parse_*.h.  CmdCloudAlter and
CmdStorageAlter (parse_cloud.h:34-42, parse_storage.h:34-42) are two cases each,
without and with `config`. -/
inductive Cmd where
  | empty
  | show (ops : List ShowOp)
  | set (name : List Nat) (value : Token)
  | debug (command : Nat)
  | checkpoint
  | service
  | rebalance
  | cloudCreate (ifNotExists : Bool) (config : CloudConfig)
  | cloudDrop (ifExists : Bool) (name : List Nat)
  | cloudRename (ifExists : Bool) (name new : List Nat)
  | cloudAlter (ifExists : Bool) (name : List Nat) (config : CloudConfig) (mask : Nat)
  | storageCreate (ifNotExists : Bool) (config : Source)
  | storageDrop (ifExists : Bool) (name : List Nat)
  | storageRename (ifExists : Bool) (name new : List Nat)
  | storageAlter (ifExists : Bool) (name : List Nat) (config : Source) (mask : Nat)
  | pipelineAlter (tiers : List TierConfig)
  | partition (p : Partition)
deriving Repr, DecidableEq

/-- What the parser takes from elsewhere: config_interval (runtime/config/global.h:56),
the default compression, and random values. -/
structure Env where
  interval : Nat
  compression : Bytes
  compressionLevel : Int
  uuid : Uuid
  key : Bytes

/-- parse_cloud_create, parse_cloud.c:116-140. -/
def cloud_create (fuel : Nat) : Prog Cmd :=
  if_not_exists.bind fun ine => name.bind fun n =>
  (options cloudTable ["cloud", "debug"] fuel { CloudConfig.allocate with name := str n }).bind fun r =>
  .ret (.cloudCreate ine r.1)

/-- parse_cloud_drop, parse_cloud.c:142-158. -/
def cloud_drop : Prog Cmd := if_exists.bind fun ie => name.bind fun n => .ret (.cloudDrop ie n)

/-- parse_cloud_alter with _rename and _set, parse_cloud.c:160-219. -/
def cloud_alter (fuel : Nat) : Prog Cmd :=
  if_exists.bind fun ie => name.bind fun n =>
  (ifKw "rename").bind fun
    | true => (ifKw "to").bind fun _ => name.bind fun m => .ret (.cloudRename ie n m)
    | false => (ifKw "set").bind fun
      | true =>
        (options cloudTable ["cloud", "debug"] fuel { CloudConfig.allocate with name := str n }).bind fun r =>
        if r.2 &&& 2 > 0 then .fail "cloud type cannot be changed" else .ret (.cloudAlter ie n r.1 r.2)
      | false => .fail "'RENAME or SET' expected"

/-- parse_storage_create, parse_storage.c:166-218. -/
def storage_create (env : Env) (fuel : Nat) : Prog Cmd :=
  if_not_exists.bind fun ine => name.bind fun n =>
  let c := { Source.allocate with name := str n, uuid := env.uuid }
  let c := if env.compression = [] then c
    else { c with compression := env.compression, compression_level := env.compressionLevel }
  (options storageTable ["cloud"] fuel c).bind fun r =>
  if encryptionOf r.1.encryption ≠ 0 ∧ r.1.encryption_key = [] then
    .ret (.storageCreate ine { r.1 with encryption_key := env.key })
  else .ret (.storageCreate ine r.1)

/-- parse_storage_drop, parse_storage.c:220-236. -/
def storage_drop : Prog Cmd := if_exists.bind fun ie => name.bind fun n => .ret (.storageDrop ie n)

/-- parse_storage_alter with _rename and _set, parse_storage.c:238-296. -/
def storage_alter (fuel : Nat) : Prog Cmd :=
  if_exists.bind fun ie => name.bind fun n =>
  (ifKw "rename").bind fun
    | true => (ifKw "to").bind fun _ => name.bind fun m => .ret (.storageRename ie n m)
    | false => (ifKw "set").bind fun
      | true =>
        (options storageTable ["cloud"] fuel { Source.allocate with name := str n }).bind fun r =>
        if r.2 &&& 1 > 0 then .fail "storage uuid cannot be changed this way" else .ret (.storageAlter ie n r.1 r.2)
      | false => .fail "'RENAME or SET' expected"

/-- parse_pipeline_set, parse_pipeline.c:25-136; `fuel` bounds both loops. -/
def pipeline_set : Nat → List TierConfig → Prog (List TierConfig)
  | 0, _ => .fail "fuel"
  | fuel + 1, list => name.bind fun n =>
    let config := { TierConfig.allocate with name := str n }
    .lexIf (isSym 44) fun
      | some _ => pipeline_set fuel (list ++ [config])
      | none => .lexIf isEof fun
        | some _ => .ret (list ++ [config])
        | none => .lexIf (isSym 40) fun
          | none => .fail "'(' expected"
          | some _ => .lexIf (isSym 41) fun
            | some _ => pipeline_set fuel (list ++ [config])
            | none => (optionLoop tierTable ["partitions"] (fuel + 1) config 0).bind fun r =>
              .lexIf (isSym 44) fun
                | some _ => pipeline_set fuel (list ++ [r.1])
                | none => .lexIf isEof fun
                  | some _ => .ret (list ++ [r.1])
                  | none => .fail "',' expected"

/-- parse_pipeline_alter, parse_pipeline.c:138-160. -/
def pipeline_alter (fuel : Nat) : Prog Cmd :=
  (ifKw "reset").bind fun
    | true => .ret (.pipelineAlter [])
    | false => (kw "set").bind fun _ => (pipeline_set fuel []).bind fun l => .ret (.pipelineAlter l)

/-- `[ON STORAGE | ON CLOUD]`, parse_partition.c:59-70 and 101-112; ID is 1 and
ID_CLOUD 8 (cloud/cloud/id.h:18-26). -/
def on_mask : Prog Nat :=
  (ifKw "on").bind fun
    | false => .ret 9
    | true => (ifKw "storage").bind fun
      | true => .ret 1
      | false => (kw "cloud").bind fun _ => .ret 8

/-- `BETWEEN min AND max`, the same lines in the five range parsers of
parse_partition.c:84-99, 155-170, 212-227, 263-278 and 318-333. -/
def between : Prog (Nat × Nat) :=
  (kw "between").bind fun _ => int.bind fun min => (kw "and").bind fun _ => int.bind fun max => .ret (min, max)

/-- parse_partition_create, parse_partition.c:25-44. -/
def partition_create (env : Env) : Prog Cmd :=
  int.bind fun min => .lexIf isInt fun
    | some (.int max) => .ret (.partition { type := .create, min := min, max := max })
    | _ => .ret (.partition { type := .create, min := min, max := wrapU64 (min + env.interval : Nat) })

/-- parse_partition_drop, parse_partition.c:46-77. -/
def partition_drop : Prog Cmd :=
  if_exists.bind fun ie => int.bind fun id => on_mask.bind fun mask =>
  .ret (.partition { type := .drop, min := id, ifExists := ie, mask := mask })

/-- parse_partition_drop_range, parse_partition.c:79-119. -/
def partition_drop_range : Prog Cmd :=
  between.bind fun r => on_mask.bind fun mask =>
  .ret (.partition { type := .dropRange, min := r.1, max := r.2, mask := mask })

/-- parse_partition_move, parse_partition.c:121-148. -/
def partition_move : Prog Cmd :=
  if_exists.bind fun ie => int.bind fun id => (kw "into").bind fun _ => name.bind fun n =>
  .ret (.partition { type := .move, min := id, ifExists := ie, storage := n })

/-- parse_partition_move_range, parse_partition.c:150-186. -/
def partition_move_range : Prog Cmd :=
  between.bind fun r => (kw "into").bind fun _ => name.bind fun n =>
  .ret (.partition { type := .moveRange, min := r.1, max := r.2, storage := n })

/-- parse_partition_refresh, parse_partition.c:188-205. -/
def partition_refresh : Prog Cmd :=
  if_exists.bind fun ie => int.bind fun id => .ret (.partition { type := .refresh, min := id, ifExists := ie })

/-- parse_partition_refresh_range, parse_partition.c:207-233. -/
def partition_refresh_range : Prog Cmd :=
  between.bind fun r => .ret (.partition { type := .refreshRange, min := r.1, max := r.2 })

/-- parse_partition_download, parse_partition.c:235-256. -/
def partition_download : Prog Cmd :=
  if_exists.bind fun ie => int.bind fun id => if_cloud.bind fun ic =>
  .ret (.partition { type := .download, min := id, ifExists := ie, ifCloud := ic })

/-- parse_partition_download_range, parse_partition.c:258-288. -/
def partition_download_range : Prog Cmd :=
  between.bind fun r => if_cloud.bind fun ic =>
  .ret (.partition { type := .downloadRange, min := r.1, max := r.2, ifCloud := ic })

/-- parse_partition_upload, parse_partition.c:290-311. -/
def partition_upload : Prog Cmd :=
  if_exists.bind fun ie => int.bind fun id => if_cloud.bind fun ic =>
  .ret (.partition { type := .upload, min := id, ifExists := ie, ifCloud := ic })

/-- parse_partition_upload_range, parse_partition.c:313-343. -/
def partition_upload_range : Prog Cmd :=
  between.bind fun r => if_cloud.bind fun ic =>
  .ret (.partition { type := .uploadRange, min := r.1, max := r.2, ifCloud := ic })

/-- The switch of parse_show, parse_config.c:37-93: type and token kept. -/
def show_op (t : Token) : Prog (ShowType × Token) :=
  match t with
  | .keyword (.kw "memory") _ => .ret (.memory, t)
  | .keyword (.kw "wal") _ => .ret (.wal, t)
  | .keyword (.kw "cloud") _ => name.bind fun n => .ret (.clouds, .name n)
  | .keyword (.kw "clouds") _ => .ret (.clouds, t)
  | .keyword (.kw "storage") _ => name.bind fun n => .ret (.storages, .name n)
  | .keyword (.kw "storages") _ => .ret (.storages, t)
  | .keyword (.kw "partition") _ => int.bind fun n => .ret (.partition, .int n)
  | .keyword (.kw "partitions") _ => .lexIf isName fun
    | some n => .ret (.partitions, n)
    | none => .ret (.partitions, t)
  | .keyword (.kw "pipeline") _ => .ret (.pipeline, t)
  | .keyword (.kw "config") _ | .keyword (.kw "all") _ => .lexIfName fun
    | some n => .ret (.name, n)
    | none => .lexIf isString fun
      | some n => .ret (.name, n)
      | none => .ret (.config, t)
  | .name _ => .ret (.name, t)
  | .string _ _ => .ret (.name, t)
  | _ => .fail "SHOW 'MEMORY | WAL | ...'"

/-- parse_show, parse_config.c:25-111. -/
def show_ : Nat → List ShowOp → Prog Cmd
  | 0, _ => .fail "fuel"
  | fuel + 1, ops => .next fun t => (show_op t).bind fun r => (ifKw "debug").bind fun d =>
    let ops := ops ++ [{ type := r.1, name := r.2, debug := d }]
    .lexIf (isSym 44) fun
      | some _ => show_ fuel ops
      | none => .ret (.show ops)

/-- parse_set, parse_config.c:113-132. -/
def set_ : Prog Cmd := .lexIfName fun
  | some (.name n) => (kw "to").bind fun _ => .next fun v => .ret (.set n v)
  | _ => .fail "SET 'name' expected"

/-- parse_debug, parse_debug.c:25-55; DEBUG_* of parse_debug.h:18-24. -/
def debug_ : Prog Cmd := string.bind fun s =>
  if s = bytes "wal_create" then .ret (.debug 0)
  else if s = bytes "wal_gc" then .ret (.debug 1)
  else if s = bytes "wal_read" then .ret (.debug 2)
  else if s = bytes "memory_gc" then .ret (.debug 3)
  else .fail "DEBUG: unknown command"

/-- A chain of `if (lex_if(self, K, NULL)) cmd = parse_...; else`, parse.c:69-160. -/
def choice : List (String × Prog Cmd) → Prog Cmd
  | [] => .fail "... expected"
  | (n, p) :: l => (ifKw n).bind fun
    | true => p
    | false => choice l

/-- The switch of parse, parse.c:33-167 (KEOF: no command). -/
def command (env : Env) (fuel : Nat) (t : Token) : Prog Cmd :=
  match t with
  | .keyword (.kw "set") _ => set_
  | .keyword (.kw "show") _ => show_ fuel []
  | .keyword (.kw "debug") _ => debug_
  | .keyword (.kw "checkpoint") _ => .ret .checkpoint
  | .keyword (.kw "service") _ => .ret .service
  | .keyword (.kw "rebalance") _ => .ret .rebalance
  | .keyword (.kw "create") _ => choice
    [("cloud", cloud_create fuel), ("storage", storage_create env fuel), ("partition", partition_create env)]
  | .keyword (.kw "drop") _ => choice
    [("cloud", cloud_drop), ("storage", storage_drop), ("partition", partition_drop), ("partitions", partition_drop_range)]
  | .keyword (.kw "alter") _ => choice
    [("cloud", cloud_alter fuel), ("storage", storage_alter fuel), ("pipeline", pipeline_alter fuel)]
  | .keyword (.kw "move") _ => choice [("partition", partition_move), ("partitions", partition_move_range)]
  | .keyword (.kw "refresh") _ => choice [("partition", partition_refresh), ("partitions", partition_refresh_range)]
  | .keyword (.kw "download") _ => choice [("partition", partition_download), ("partitions", partition_download_range)]
  | .keyword (.kw "upload") _ => choice [("partition", partition_upload), ("partitions", partition_upload_range)]
  | .eof => .ret .empty
  | _ => .fail "unknown command"

/-- parse, parse.c:25-182. -/
def parseProg (env : Env) (fuel : Nat) : Prog Cmd :=
  .next fun t => (command env fuel t).bind fun cmd =>
  .lexIf isEof fun
    | some _ => .ret cmd
    | none => .fail "unexpected clause at the end of command"

/-- The command of a text (main_execute, main/main/execute.c:535-546: lex_init, lex_start,
parse). -/
def parse (env : Env) (text : List Nat) : Res Cmd :=
  ((parseProg env (text.length + 1)).run (Lex.start text)).bind fun r => .ok r.1

end Verif.Parse
