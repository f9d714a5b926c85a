import Verif.Model.Json
import Verif.Model.Decode

/-! Model of runtime/config/var.h, runtime/config/config.c and of execute_set in
main/main/execute.c: the configuration variables, their file and SET. -/
namespace Verif
namespace Config
open Data Decode

/-- VarType, runtime/config/var.h:34-40. -/
inductive VType where
  | bool | int | string | data
deriving Repr, DecidableEq

/-! The flags, runtime/config/var.h:18-32 (as notation for the numbers). -/
scoped notation "VAR_C" => (1 : Nat)
scoped notation "VAR_R" => (2 : Nat)
scoped notation "VAR_H" => (4 : Nat)
scoped notation "VAR_S" => (8 : Nat)
scoped notation "VAR_E" => (16 : Nat)
scoped notation "VAR_Z" => (32 : Nat)

/-- `struct Var`, var.h:42-53.  The union is `int` (for bool and int variables)
and `str` (for strings and data; [] when not set). -/
structure Var where
  name : Bytes
  type : VType
  flags : Nat
  int : Nat
  str : Bytes
deriving Repr, DecidableEq

/-- var_is, var.h:75-79. -/
def Var.is (v : Var) (flag : Nat) : Bool := v.flags &&& flag > 0

/-- config_add, config.c:29-59: one line of the table, with its default. -/
def add (name : String) (type : VType) (flags : Nat) (string : String) (int : Nat) : Var :=
  { name := cstr name, type := type, flags := flags, int := int, str := cstr string }

/-- The table of config_prepare, config.c:76-134, in the order of `self->list`.
`config()->online` is not in the table; see `execute_set`. -/
def prepare : List Var :=
  [add "version" .string VAR_E "1.0.0" 0,
   add "uuid" .string VAR_C "" 0,
   add "directory" .string VAR_E "" 0,
   add "sync" .bool (VAR_E + VAR_C + VAR_H) "" 1,
   add "log" .bool VAR_C "" 1,
   add "log_to_file" .bool VAR_C "" 1,
   add "log_to_stdout" .bool VAR_C "" 0,
   add "mm_page_size" .int VAR_C "" 2097152,
   add "mm_limit" .bool VAR_C "" 0,
   add "mm_limit_wm" .int VAR_C "" 8589934592,
   add "mm_limit_behaviour" .string VAR_C "block" 0,
   add "mm_cache" .int VAR_C "" 8589934592,
   add "wal" .bool VAR_C "" 1,
   add "wal_rotate_wm" .int (VAR_C + VAR_R) "" 104857600,
   add "wal_sync_on_rotate" .bool VAR_C "" 1,
   add "wal_sync_on_write" .bool VAR_C "" 0,
   add "wal_crc" .bool VAR_C "" 0,
   add "serial" .bool VAR_C "" 1,
   add "interval" .int (VAR_C + VAR_R + VAR_Z) "" 3000000,
   add "compression" .string (VAR_C + VAR_R) "zstd" 0,
   add "compression_level" .int (VAR_C + VAR_R) "" 0,
   add "workers" .int VAR_C "" 3,
   add "workers_upload" .int VAR_C "" 1,
   add "ssn" .int (VAR_E + VAR_R) "" 0,
   add "lsn" .int VAR_E "" 0,
   add "clouds" .data (VAR_C + VAR_H) "" 0,
   add "storages" .data (VAR_C + VAR_H) "" 0,
   add "pipeline" .data (VAR_C + VAR_H) "" 0,
   add "error_refresh_1" .bool (VAR_H + VAR_R + VAR_E) "" 0,
   add "error_refresh_2" .bool (VAR_H + VAR_R + VAR_E) "" 0,
   add "error_refresh_3" .bool (VAR_H + VAR_R + VAR_E) "" 0,
   add "error_download" .bool (VAR_H + VAR_R + VAR_E) "" 0,
   add "error_upload" .bool (VAR_H + VAR_R + VAR_E) "" 0,
   add "error_wal" .bool (VAR_H + VAR_R + VAR_E) "" 0,
   add "test_bool" .bool (VAR_H + VAR_R + VAR_E) "" 0,
   add "test_int" .int (VAR_H + VAR_R + VAR_E) "" 0,
   add "test_string" .string (VAR_H + VAR_R + VAR_E) "" 0,
   add "test_data" .data (VAR_H + VAR_R + VAR_E) "" 0]

/-- config_find, config.c:320-329. -/
def find : List Var → Bytes → Option Var
  | [], _ => none
  | v :: l, name => if v.name = name then some v else find l name

/-- A change of the variable that config_find returned. -/
def update : List Var → Bytes → Var → List Var
  | [], _, _ => []
  | v :: l, name, w => if v.name = name then w :: l else v :: update l name w

/-- var_encode, var.h:203-224. -/
def encode (v : Var) : Bytes :=
  match v.type with
  | .string => data_write_raw v.str
  | .data => if v.str.isEmpty then data_write_null else v.str
  | .bool => data_write_bool (v.int ≠ 0)
  | .int => data_write_integer v.int

/-- config_list_persistent, config.c:212-224.  `count_persistent` counts the
variables without VAR_E (config_add, config.c:41-45). -/
def list_persistent (cfg : List Var) : Bytes :=
  data_write_map (cfg.filter (fun v => !v.is VAR_E)).length ++
    (cfg.filter (fun v => !v.is VAR_E)).flatMap fun v => data_write_raw v.name ++ encode v

/-- The text written by config_save_to, config.c:226-238. -/
def saveText (fmt : Nat → Bytes) (depth : Nat) (cfg : List Var) : Res Bytes :=
  Json.export_pretty fmt depth (list_persistent cfg)

/-- The switch of config_set_data, config.c:154-198: the changed variable and the
data after its value.  var_int_set stores a `uint64_t`. -/
def setVar (v : Var) (bs : Bytes) : Res (Var × Bytes) :=
  match bs with
  | [] => .ub "read past the end of the buffer"
  | t :: _ =>
    match v.type with
    | .bool =>
      if ! data_is_bool t.toNat then .err "config: bool expected"
      else (data_read_bool bs).bind fun (b, r) => .ok ({ v with int := if b then 1 else 0 }, r)
    | .int =>
      if ! data_is_integer t.toNat then .err "config: integer expected"
      else (data_read_integer bs).bind fun (i, r) => .ok ({ v with int := wrapU64 i }, r)
    | .string =>
      if ! data_is_string t.toNat then .err "config: string expected"
      else (data_read_raw bs).bind fun (s, r) => .ok ({ v with str := s }, r)
    | .data =>
      (data_skip bs).bind fun r => .ok ({ v with str := bs.take (bs.length - r.length) }, r)

/-- The loop of config_set_data, config.c:140-199. -/
def setLoop : Nat → List Var → Bytes → Res (List Var)
  | 0, cfg, _ => .ok cfg
  | n + 1, cfg, bs =>
    (data_read_raw bs).bind fun (name, r) =>
      match find cfg name with
      | none => .err "config: unknown option"
      | some v =>
        if ! v.is VAR_C then .err "config: option cannot be changed"
        else (setVar v r).bind fun (w, r) => setLoop n (update cfg name w) r

/-- config_set_data, config.c:136-200. -/
def set_data (cfg : List Var) (bs : Bytes) : Res (List Var) :=
  (data_read_map bs).bind fun (count, r) => setLoop count.toNat cfg r

/-- config_set, config.c:202-210.  The buffer of an accepted empty text is NULL;
reading it is the read past the end of `data_read_map []`. -/
def set (fp : Bytes → Option (Nat × Nat)) (depth : Nat) (cfg : List Var) (text : Bytes) : Res (List Var) :=
  (Json.parse fp depth text).bind fun bs => set_data cfg bs

/-- The two files of the configuration: "config.json" and "config.json.old". -/
structure Files where
  cur : Option Bytes
  old : Option Bytes
deriving Repr, DecidableEq

/-- The file system calls of config_save and config_save_to. -/
inductive Sys where
  | unlinkOld
  | rename
  | create
  | write (chunk : Bytes)
deriving Repr, DecidableEq

/-- One call.  fs_unlink and fs_rename throw when the file does not exist
(runtime/runtime/fs.h); O_CREAT without O_TRUNC keeps an existing file, but
here the file has just been renamed. -/
def Sys.run (fs : Files) : Sys → Res Files
  | .unlinkOld => if fs.old.isNone then .err "unlink" else .ok { fs with old := none }
  | .rename =>
    match fs.cur with
    | none => .err "rename"
    | some t => .ok { cur := none, old := some t }
  | .create =>
    match fs.cur with
    | none => .ok { fs with cur := some [] }
    | some t => .ok { fs with cur := some t }
  | .write chunk =>
    match fs.cur with
    | none => .ub "no file"
    | some t => .ok { fs with cur := some (t ++ chunk) }

/-- The calls of config_save, config.c:254-272, in order.  The loop of vfs_write
(runtime/runtime/vfs.c:134-149) hands the text to the kernel in pieces that the
kernel chooses: `chunks`, whose concatenation is the text.  fsync is not
modelled: a crash is the death of the process, not of the machine. -/
def saveCalls (fs : Files) (chunks : List Bytes) : List Sys :=
  (if fs.old.isSome then [.unlinkOld] else []) ++ [.rename, .create] ++ chunks.map .write ++ [.unlinkOld]

/-- Some calls in order. -/
def runCalls : Files → List Sys → Res Files
  | fs, [] => .ok fs
  | fs, c :: cs => (c.run fs).bind fun fs => runCalls fs cs

/-- config_save interrupted after `k` calls (all of them if `k` is large). -/
def saveCrash (fs : Files) (chunks : List Bytes) (k : Nat) : Res Files :=
  runCalls fs ((saveCalls fs chunks).take k)

/-- config_open, config.c:274-292: the configuration and the files after it.
file_import of an empty file fails, since vfs_pread reports a read of 0 bytes as
an error (runtime/runtime/vfs.c:113-132).  When there is no file the defaults
are written; the `.old` file is never looked at. -/
def open_ (fp : Bytes → Option (Nat × Nat)) (fmt : Nat → Bytes) (depth : Nat) (cfg : List Var) (fs : Files) :
    Res (List Var × Files) :=
  match fs.cur with
  | some text =>
    if text.isEmpty then .err "pread" else (set fp depth cfg text).bind fun cfg => .ok (cfg, fs)
  | none => (saveText fmt depth cfg).bind fun text => .ok (cfg, { fs with cur := some text })

/-- The value of a SET command, as execute_set tells them apart: `value->id` is
KTRUE or KFALSE, KINT, KSTRING or anything else. -/
inductive SetValue where
  | bool (b : Bool)
  | int (n : Nat)
  | string (s : Bytes)
  | other
deriving Repr, DecidableEq

/-- execute_set, main/main/execute.c:111-179: the outcome and the configuration
afterwards.  `online` is config_online(); `save` is the outcome of
control_save_config. -/
def execute_set (online : Bool) (save : Res Unit) (cfg : List Var) (name : Bytes) (value : SetValue) :
    Res Unit × List Var :=
  match (match find cfg name with
    | some v => if v.is VAR_S then none else some v
    | none => none) with
  | none => (.err "SET: variable not found", cfg)
  | some v =>
    if online && ! v.is VAR_R then (.err "SET: variable cannot be changed online", cfg)
    else if ! online && ! v.is VAR_C then (.err "SET: variable cannot be changed", cfg)
    else
      let done (w : Var) : Res Unit × List Var :=
        (if online && ! v.is VAR_E then save else .ok (), update cfg name w)
      match v.type, value with
      | .bool, .bool b => done { v with int := if b then 1 else 0 }
      | .bool, _ => (.err "SET: bool value expected", cfg)
      | .int, .int n =>
        if v.is VAR_Z && n = 0 then (.err "SET: variable cannot be set to zero", cfg)
        else done { v with int := n }
      | .int, _ => (.err "SET: integer value expected", cfg)
      | .string, .string s => done { v with str := s }
      | .string, _ => (.err "SET: string value expected", cfg)
      | .data, _ => (.err "SET: variable cannot be changed", cfg)

end Config
end Verif
