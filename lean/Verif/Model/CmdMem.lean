import Verif.Model.Parse

/-! The memory of a command: what main/command/parse*.c and main_execute
(main/main/execute.c:535-590) allocate and free while a command is read and
executed.  The parsers are those of `Model/Parse.lean` with the calls of malloc,
free, guard and unguard put back in.

A block is known by the number of the allocation that gave it; numbers are not
used again.  Any allocation may fail.  Guards are a stack (C50): what is on it runs
when an error is thrown.  What a command does to the database is not part of it:
the managers copy what they keep (cloud_mgr.c:69-82, storage_mgr.c, tier.h), and
the command is not changed by its execution. -/
namespace Verif.CmdMem
open Lex Parse

abbrev Ptr := Nat

/-- `free` of struct Cmd, cmd.h:50-54: NULL, cmd_cloud_create_free and the three
others that free `config` (parse_cloud.h:62-68 and 91-97, parse_storage.h:62-68
and 91-97), cmd_show_free (parse_config.h:67-76), cmd_pipeline_alter_free
(parse_pipeline.h:31-40). -/
inductive FreeFn where
  | null | config | show | pipeline
deriving Repr, DecidableEq

/-- What a block holds, as far as other blocks are concerned. -/
inductive Block where
  /-- a Cmd with its `config` and its `list` -/
  | cmd (free : FreeFn) (config : Option Ptr) (list : List Ptr)
  /-- CloudConfig, Source or TierConfig: its Str fields in the order in which they
  are freed; `none` is a Str that is not `allocated` (runtime/runtime/str.h:18-23) -/
  | config (strs : List (Option Ptr))
  /-- CmdShowOp -/
  | op
  /-- characters -/
  | chars
deriving Repr, DecidableEq

/-- The blocks that are live, the number of the next allocation, and which
allocations fail. -/
structure Mem where
  live : List (Ptr × Block)
  next : Nat
  fails : Nat → Bool

/-- mn_free, runtime/runtime/allocator.h:34-38. -/
def Mem.free (m : Mem) (p : Ptr) : Res Mem :=
  if m.live.any (·.1 == p) then .ok { m with live := m.live.filter (·.1 != p) }
  else .ub "free of a block that is not live"

/-- Reading a block. -/
def Mem.get (m : Mem) (p : Ptr) : Res Block :=
  match m.live.find? (·.1 == p) with
  | some b => .ok b.2
  | none => .ub "use of a block that is not live"

/-- Writing a block. -/
def Mem.put (m : Mem) (p : Ptr) (b : Block) : Res Mem :=
  if m.live.any (·.1 == p) then .ok { m with live := m.live.map fun x => if x.1 = p then (p, b) else x }
  else .ub "use of a block that is not live"

/-- str_free, str.h:33-39, of each of the Str of a config. -/
def Mem.freeStrs (m : Mem) : List (Option Ptr) → Res Mem
  | [] => .ok m
  | none :: l => m.freeStrs l
  | some p :: l => (m.free p).bind fun m => m.freeStrs l

/-- cloud_config_free (cloud/cloud/cloud_config.h:51-60), source_free
(cloud/cloud/source.h:73-83), tier_config_free (engine/storage/tier_config.h:43-48). -/
def config_free (m : Mem) (c : Ptr) : Res Mem :=
  (m.get c).bind fun
    | .config strs => (m.freeStrs strs).bind fun m => m.free c
    | _ => .ub "not a config"

/-- The loop of cmd_show_free, parse_config.h:67-76. -/
def free_ops (m : Mem) : List Ptr → Res Mem
  | [] => .ok m
  | p :: l => (m.free p).bind fun m => free_ops m l

/-- The loop of cmd_pipeline_alter_free, parse_pipeline.h:31-40. -/
def free_tiers (m : Mem) : List Ptr → Res Mem
  | [] => .ok m
  | p :: l => (config_free m p).bind fun m => free_tiers m l

/-- cmd_free, cmd.h:66-72. -/
def cmd_free (m : Mem) (p : Ptr) : Res Mem :=
  (m.get p).bind fun
    | .cmd fn config list =>
      Res.bind (match fn, config with
        | .null, _ => .ok m
        | .config, none => .ok m
        | .config, some c => config_free m c
        | .show, _ => free_ops m list
        | .pipeline, _ => free_tiers m list) fun m => m.free p
    | _ => .ub "not a command"

/-- The functions given to `guard` by the parsers. -/
inductive Guard where
  | cmd (p : Ptr)
  | tier (p : Ptr)
deriving Repr, DecidableEq

/-- exception_mgr_execute_guards, runtime/runtime/exception.h:48-58. -/
def run_guards (m : Mem) : List Guard → Res Mem
  | [] => .ok m
  | .cmd p :: l => (cmd_free m p).bind fun m => run_guards m l
  | .tier p :: l => (config_free m p).bind fun m => run_guards m l

structure State where
  lex : Lex
  mem : Mem
  guards : List Guard

/-- How a piece of code ends. -/
inductive Out (α : Type) where
  | ok (a : α) (s : State)
  | thrown (msg : String) (m : Mem)
  | abort (msg : String)
  | ub (msg : String)

/-- Code with memory. -/
def M (α : Type) := State → Out α

namespace M

def ret {α : Type} (a : α) : M α := fun s => .ok a s

def bind {α β : Type} (x : M α) (f : α → M β) : M β := fun s =>
  match x s with
  | .ok a s => f a s
  | .thrown e m => .thrown e m
  | .abort e => .abort e
  | .ub e => .ub e

/-- Something the code must not do. -/
def undef {α : Type} (msg : String) : M α := fun _ => .ub msg

/-- error(...), runtime/runtime/throw.h: the guards run. -/
def throw_ {α : Type} (msg : String) : M α := fun s =>
  match run_guards s.mem s.guards with
  | .ok m => .thrown msg m
  | .err e => .ub e
  | .abort e => .abort e
  | .ub e => .ub e

/-- A call of the tokenizer, which may throw. -/
def lexer {α : Type} (f : Lex → Res (α × Lex)) : M α := fun s =>
  match f s.lex with
  | .ok (a, l) => .ok a { s with lex := l }
  | .err e => throw_ e s
  | .abort e => .abort e
  | .ub e => .ub e

/-- A part of a parser that does not use memory. -/
def lift {α : Type} : Prog α → M α
  | .ret a => ret a
  | .fail e => throw_ e
  | .next k => bind (lexer Lex.next) fun t => lift (k t)
  | .lexIf p k => bind (lexer (Lex.lexIf p)) fun t => lift (k t)
  | .lexIfName k => bind (lexer Lex.lexIfName) fun t => lift (k t)

/-- mn_malloc, runtime/runtime/allocator.h:16-23, and what is stored into the block
right after. -/
def malloc (b : Block) : M Ptr := fun s =>
  let s' := { s with mem := { s.mem with next := s.mem.next + 1 } }
  if s.mem.fails s.mem.next then throw_ "malloc" s'
  else .ok s.mem.next { s' with mem := { s'.mem with live := (s.mem.next, b) :: s.mem.live } }

/-- Memory is used, nothing else. -/
def mem (f : Mem → Res Mem) : M Unit := fun s =>
  match f s.mem with
  | .ok m => .ok () { s with mem := m }
  | .err e => throw_ e s
  | .abort e => .abort e
  | .ub e => .ub e

def read (p : Ptr) : M Block := fun s =>
  match s.mem.get p with
  | .ok b => .ok b s
  | .err e => throw_ e s
  | .abort e => .abort e
  | .ub e => .ub e

/-- guard, runtime/runtime/guard.h:43-53. -/
def guard (g : Guard) : M Unit := fun s => .ok () { s with guards := g :: s.guards }

/-- unguard, runtime/runtime/guard.h:35-41. -/
def unguard : M Unit := fun s =>
  match s.guards with
  | [] => .ub "guard_pop: empty list"
  | _ :: l => .ok () { s with guards := l }

end M

/-- The Str fields of a config. -/
def strsOf (c : Ptr) : M (List (Option Ptr)) :=
  (M.read c).bind fun
    | .config strs => .ret strs
    | _ => M.undef "not a config"

/-- str_free of field `i` of a config. -/
def str_free (c : Ptr) (i : Nat) : M Unit :=
  (strsOf c).bind fun strs =>
  match strs[i]? with
  | none => M.undef "no such field"
  | some none => .ret ()
  | some (some p) =>
    (M.mem fun m => m.free p).bind fun _ => M.mem fun m => m.put c (.config (strs.set i none))

/-- str_strndup into field `i` of a config, str.h:126-133. -/
def str_strndup (c : Ptr) (i : Nat) : M Unit :=
  (M.malloc .chars).bind fun p => (strsOf c).bind fun strs =>
  if i < strs.length then M.mem fun m => m.put c (.config (strs.set i (some p)))
  else M.undef "no such field"

/-- str_free and str_copy: parse_string (parse_misc.h:77-88), cloud_config_set_name,
source_set_name, source_set_compression, tier_config_set_name. -/
def set_str (c : Ptr) (i : Nat) : M Unit := (str_free c i).bind fun _ => str_strndup c i

/-- `cmd->config = p`. -/
def set_config (k c : Ptr) : M Unit :=
  (M.read k).bind fun
    | .cmd fn _ list => M.mem fun m => m.put k (.cmd fn (some c) list)
    | _ => M.undef "not a command"

/-- list_append to the list of a command: cmd_pipeline_alter_add
(parse_pipeline.h:53-58), parse_config.c:99-100. -/
def add (k p : Ptr) : M Unit :=
  (M.read k).bind fun
    | .cmd fn config list => M.mem fun m => m.put k (.cmd fn config (list ++ [p]))
    | _ => M.undef "not a command"

/-- cmd_allocate, cmd.h:56-64, with what the callers initialize. -/
def cmd_allocate (fn : FreeFn) : M Ptr := M.malloc (.cmd fn none [])

/-- cloud_config_allocate (cloud_config.h:37-48), source_allocate (source.h:51-70),
tier_config_allocate (tier_config.h:29-40); `n` is the number of Str fields. -/
def config_allocate (n : Nat) : M Ptr := M.malloc (.config (List.replicate n none))

/-- Which Str field an option stores into, in the order name, type, login, password,
url (cloud_config.h:28-36); parse_cloud.c:25-114. -/
def cloudSlot (s : String) : Option Nat :=
  if s = "type" then some 1 else if s = "login" then some 2 else if s = "password" then some 3
  else if s = "url" then some 4 else if s = "access_key" then some 2 else if s = "secret_key" then some 3
  else none

/-- The same for a storage: name, path, cloud, compression, encryption,
encryption_key (source.h:35-50); parse_storage.c:25-164. -/
def storageSlot (s : String) : Option Nat :=
  if s = "path" then some 1 else if s = "cloud" then some 2 else if s = "compression" then some 3
  else if s = "encryption" then some 4 else if s = "encryption_key" then some 5 else none

/-- What parse_string does with memory for an option, if it is one. -/
def store (slot : String → Option Nat) (c : Ptr) (name : String) : M Unit :=
  match slot name with
  | some i => set_str c i
  | none => .ret ()

/-- `Parse.optionLoop` with memory. -/
def optionLoop {σ : Type} (table : List (Opt σ)) (words : List String) (slot : String → Option Nat) (c : Ptr) :
    Nat → σ → Nat → M (σ × Nat)
  | 0, _, _ => M.throw_ "fuel"
  | fuel + 1, v, mask => (M.lift (.next .ret)).bind fun t =>
    match optionName words t with
    | none => M.throw_ "'name' expected"
    | some s =>
      match table.find? fun o => bytes o.name == s with
      | none => M.throw_ "unknown option"
      | some o => (M.lift (value o.kind)).bind fun x => (store slot c o.name).bind fun _ =>
        match o.set v x with
        | none => M.throw_ "invalid value"
        | some v => (M.lift (.lexIf (isSym 44) .ret)).bind fun
            | some _ => optionLoop table words slot c fuel v (mask ||| o.bit)
            | none => (M.lift (.lexIf (isSym 41) .ret)).bind fun
              | some _ => .ret (v, mask ||| o.bit)
              | none => M.throw_ "')' expected"

/-- `Parse.options` with memory. -/
def options {σ : Type} (table : List (Opt σ)) (words : List String) (slot : String → Option Nat) (c : Ptr)
    (fuel : Nat) (v : σ) : M (σ × Nat) :=
  (M.lift (.lexIf (isSym 40) .ret)).bind fun
    | none => .ret (v, 0)
    | some _ => (M.lift (.lexIf (isSym 41) .ret)).bind fun
      | some _ => .ret (v, 0)
      | none => optionLoop table words slot c fuel v 0

/-- A command that is allocated when all of it has been read: parse_partition.c,
parse_set (parse_config.c:113-132), parse_debug.c, parse_system.h. -/
def plain (p : Prog Cmd) : M (Cmd × Ptr) :=
  (M.lift p).bind fun cmd => (cmd_allocate .null).bind fun k => .ret (cmd, k)

/-- A command that is allocated first and guarded: `auto cmd = ..._allocate();
guard(cmd_free, &cmd->cmd); ... unguard(); return &cmd->cmd;` -/
def guarded (fn : FreeFn) (p : Ptr → M Cmd) : M (Cmd × Ptr) :=
  (cmd_allocate fn).bind fun k => (M.guard (.cmd k)).bind fun _ => (p k).bind fun cmd =>
  M.unguard.bind fun _ => .ret (cmd, k)

/-- `cmd->config = ..._allocate(); ..._set_name(cmd->config, ...)`. -/
def named_config (k : Ptr) (n : Nat) : M Ptr :=
  (config_allocate n).bind fun c => (set_config k c).bind fun _ => (set_str c 0).bind fun _ => .ret c

/-- parse_cloud_create, parse_cloud.c:116-140. -/
def cloud_create (fuel : Nat) : M (Cmd × Ptr) := guarded .config fun k =>
  (M.lift (if_not_exists.bind fun ine => name.bind fun n => .ret (ine, n))).bind fun (ine, n) =>
  (named_config k 5).bind fun c =>
  (options cloudTable ["cloud", "debug"] cloudSlot c fuel { CloudConfig.allocate with name := str n }).bind fun r =>
  .ret (.cloudCreate ine r.1)

/-- parse_cloud_drop, parse_cloud.c:142-158, and parse_storage_drop,
parse_storage.c:220-236: nothing but the command is allocated. -/
def guarded_plain (p : Prog Cmd) : M (Cmd × Ptr) := guarded .null fun _ => M.lift p

/-- parse_cloud_alter with _rename and _set, parse_cloud.c:160-219. -/
def cloud_alter (fuel : Nat) : M (Cmd × Ptr) := guarded .config fun k =>
  (M.lift (if_exists.bind fun ie => name.bind fun n => (ifKw "rename").bind fun b => .ret (ie, n, b))).bind fun
    | (ie, n, true) =>
      M.lift ((ifKw "to").bind fun _ => name.bind fun m => .ret (.cloudRename ie n m))
    | (ie, n, false) => (M.lift (ifKw "set")).bind fun
      | true =>
        (named_config k 5).bind fun c =>
        (options cloudTable ["cloud", "debug"] cloudSlot c fuel { CloudConfig.allocate with name := str n }).bind fun r =>
        if r.2 &&& 2 > 0 then M.throw_ "cloud type cannot be changed" else .ret (.cloudAlter ie n r.1 r.2)
      | false => M.throw_ "'RENAME or SET' expected"

/-- parse_storage_create, parse_storage.c:166-218.  The key is made with str_strndup
alone: a Str that is empty is not freed before. -/
def storage_create (env : Env) (fuel : Nat) : M (Cmd × Ptr) := guarded .config fun k =>
  (M.lift (if_not_exists.bind fun ine => name.bind fun n => .ret (ine, n))).bind fun (ine, n) =>
  (named_config k 6).bind fun c =>
  let v := { Source.allocate with name := str n, uuid := env.uuid }
  (if env.compression = [] then M.ret () else set_str c 3).bind fun _ =>
  let v := if env.compression = [] then v
    else { v with compression := env.compression, compression_level := env.compressionLevel }
  (options storageTable ["cloud"] storageSlot c fuel v).bind fun r =>
  if encryptionOf r.1.encryption ≠ 0 ∧ r.1.encryption_key = [] then
    (str_strndup c 5).bind fun _ => .ret (.storageCreate ine { r.1 with encryption_key := env.key })
  else .ret (.storageCreate ine r.1)

/-- parse_storage_alter with _rename and _set, parse_storage.c:238-296. -/
def storage_alter (fuel : Nat) : M (Cmd × Ptr) := guarded .config fun k =>
  (M.lift (if_exists.bind fun ie => name.bind fun n => (ifKw "rename").bind fun b => .ret (ie, n, b))).bind fun
    | (ie, n, true) =>
      M.lift ((ifKw "to").bind fun _ => name.bind fun m => .ret (.storageRename ie n m))
    | (ie, n, false) => (M.lift (ifKw "set")).bind fun
      | true =>
        (named_config k 6).bind fun c =>
        (options storageTable ["cloud"] storageSlot c fuel { Source.allocate with name := str n }).bind fun r =>
        if r.2 &&& 1 > 0 then M.throw_ "storage uuid cannot be changed this way" else .ret (.storageAlter ie n r.1 r.2)
      | false => M.throw_ "'RENAME or SET' expected"

/-- parse_pipeline_set, parse_pipeline.c:25-136. -/
def pipeline_set (k : Ptr) : Nat → List TierConfig → M (List TierConfig)
  | 0, _ => M.throw_ "fuel"
  | fuel + 1, list => (M.lift name).bind fun n =>
    let config := { TierConfig.allocate with name := str n }
    (config_allocate 1).bind fun c => (M.guard (.tier c)).bind fun _ => (set_str c 0).bind fun _ =>
    (M.lift (.lexIf (isSym 44) .ret)).bind fun
      | some _ => M.unguard.bind fun _ => (add k c).bind fun _ => pipeline_set k fuel (list ++ [config])
      | none => (M.lift (.lexIf isEof .ret)).bind fun
        | some _ => M.unguard.bind fun _ => (add k c).bind fun _ => .ret (list ++ [config])
        | none => (M.lift (.lexIf (isSym 40) .ret)).bind fun
          | none => M.throw_ "'(' expected"
          | some _ => (M.lift (.lexIf (isSym 41) .ret)).bind fun
            | some _ => M.unguard.bind fun _ => (add k c).bind fun _ => pipeline_set k fuel (list ++ [config])
            | none => (optionLoop tierTable ["partitions"] (fun _ => none) c (fuel + 1) config 0).bind fun r =>
              M.unguard.bind fun _ => (add k c).bind fun _ =>
              (M.lift (.lexIf (isSym 44) .ret)).bind fun
                | some _ => pipeline_set k fuel (list ++ [r.1])
                | none => (M.lift (.lexIf isEof .ret)).bind fun
                  | some _ => .ret (list ++ [r.1])
                  | none => M.throw_ "',' expected"

/-- parse_pipeline_alter, parse_pipeline.c:138-160. -/
def pipeline_alter (fuel : Nat) : M (Cmd × Ptr) := guarded .pipeline fun k =>
  (M.lift (ifKw "reset")).bind fun
    | true => .ret (.pipelineAlter [])
    | false => (M.lift (kw "set")).bind fun _ => (pipeline_set k fuel []).bind fun l => .ret (.pipelineAlter l)

/-- The loop of parse_show, parse_config.c:31-107. -/
def show_loop (k : Ptr) : Nat → List ShowOp → M Cmd
  | 0, _ => M.throw_ "fuel"
  | fuel + 1, ops =>
    (M.lift (.next fun t => (show_op t).bind fun r => (ifKw "debug").bind fun d => .ret (r, d))).bind fun (r, d) =>
    (M.malloc .op).bind fun p => (add k p).bind fun _ =>
    let ops := ops ++ [{ type := r.1, name := r.2, debug := d }]
    (M.lift (.lexIf (isSym 44) .ret)).bind fun
      | some _ => show_loop k fuel ops
      | none => .ret (.show ops)

/-- parse_show, parse_config.c:25-111. -/
def show_ (fuel : Nat) : M (Cmd × Ptr) := guarded .show fun k => show_loop k fuel []

/-- `Parse.choice` with memory. -/
def choice : List (String × M (Cmd × Ptr)) → M (Cmd × Ptr)
  | [] => M.throw_ "... expected"
  | (n, p) :: l => (M.lift (ifKw n)).bind fun
    | true => p
    | false => choice l

/-- The switch of parse, parse.c:33-167; `none` is no command. -/
def command (env : Env) (fuel : Nat) (t : Token) : M (Cmd × Option Ptr) :=
  let some_ (p : M (Cmd × Ptr)) : M (Cmd × Option Ptr) := p.bind fun r => .ret (r.1, some r.2)
  match t with
  | .keyword (.kw "set") _ => some_ (plain set_)
  | .keyword (.kw "show") _ => some_ (show_ fuel)
  | .keyword (.kw "debug") _ => some_ (plain debug_)
  | .keyword (.kw "checkpoint") _ => some_ (plain (.ret .checkpoint))
  | .keyword (.kw "service") _ => some_ (plain (.ret .service))
  | .keyword (.kw "rebalance") _ => some_ (plain (.ret .rebalance))
  | .keyword (.kw "create") _ => some_ (choice
    [("cloud", cloud_create fuel), ("storage", storage_create env fuel), ("partition", plain (partition_create env))])
  | .keyword (.kw "drop") _ => some_ (choice
    [("cloud", guarded_plain cloud_drop), ("storage", guarded_plain storage_drop),
     ("partition", plain partition_drop), ("partitions", plain partition_drop_range)])
  | .keyword (.kw "alter") _ => some_ (choice
    [("cloud", cloud_alter fuel), ("storage", storage_alter fuel), ("pipeline", pipeline_alter fuel)])
  | .keyword (.kw "move") _ => some_ (choice
    [("partition", plain partition_move), ("partitions", plain partition_move_range)])
  | .keyword (.kw "refresh") _ => some_ (choice
    [("partition", plain partition_refresh), ("partitions", plain partition_refresh_range)])
  | .keyword (.kw "download") _ => some_ (choice
    [("partition", plain partition_download), ("partitions", plain partition_download_range)])
  | .keyword (.kw "upload") _ => some_ (choice
    [("partition", plain partition_upload), ("partitions", plain partition_upload_range)])
  | .eof => .ret (.empty, none)
  | _ => M.throw_ "unknown command"

/-- parse, parse.c:25-182.  The command is not guarded while the end of the text is
looked for. -/
def parse (env : Env) (fuel : Nat) : M (Cmd × Option Ptr) :=
  (M.lift (.next .ret)).bind fun t => (command env fuel t).bind fun r =>
  (M.lift (.lexIf isEof .ret)).bind fun
    | some _ => .ret r
    | none =>
      match r.2 with
      | none => M.throw_ "unexpected clause at the end of command"
      | some k => (M.mem fun m => cmd_free m k).bind fun _ =>
        M.throw_ "unexpected clause at the end of command"

/-- What the execution of a command does as far as its memory is concerned: write to
the output or not, and throw or not. -/
structure Exec where
  output : Bool
  throws : Bool

/-- How main_execute ends: with or without a result handed to the caller, and with
an error. -/
inductive Ended where
  | done (cmd : Cmd) (result : Option Ptr) (m : Mem)
  | refused (msg : String) (m : Mem)
  | abort (msg : String)
  | ub (msg : String)

/-- The end of main_execute, execute.c:565-590, for a command `k`: it is executed,
freed, and its output, guarded by buf_free, handed over or freed.  mn_realloc
leaves the buffer as it is when it fails. -/
def finish (exec : Exec) (want : Bool) (cmd : Cmd) (k : Ptr) (m : Mem) : Ended :=
  -- buf_reserve while the command writes its output
  let out := exec.output && ! m.fails m.next
  let thrown := exec.throws || (exec.output && m.fails m.next)
  let o := m.next
  let m := if exec.output then { m with next := m.next + 1, live := if out then (o, .chars) :: m.live else m.live } else m
  match cmd_free m k with
  | .err e => .ub e
  | .abort e => .abort e
  | .ub e => .ub e
  | .ok m =>
    let free (m : Mem) (f : Mem → Ended) : Ended :=
      if out then
        match m.free o with
        | .ok m => f m
        | .err e => .ub e
        | .abort e => .abort e
        | .ub e => .ub e
      else f m
    if thrown then free m (.refused "error of the command")
    else if want && out then
      if m.fails m.next then free { m with next := m.next + 1 } (.refused "realloc")
      else .done cmd (some o) { m with next := m.next + 1 }
    else free m (.done cmd none)

/-- main_execute, main/main/execute.c:535-590; `want`: the caller passed `result`. -/
def main_execute (env : Env) (text : List Nat) (exec : Exec) (want : Bool) (m : Mem) : Ended :=
  match parse env (text.length + 1) ⟨Lex.start text, m, []⟩ with
  | .thrown e m => .refused e m
  | .abort e => .abort e
  | .ub e => .ub e
  | .ok (cmd, none) s => .done cmd none s.mem
  | .ok (cmd, some k) s => finish exec want cmd k s.mem

end Verif.CmdMem
