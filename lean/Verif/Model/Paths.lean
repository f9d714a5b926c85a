import Verif.Model.FileName
import Verif.Model.Uuid

/-! Model of the paths of all files of an environment: cloud/cloud/source.h,
cloud/cloud/id.h, cloud/cloud/mock.c, engine/wal, main/main/main.c,
runtime/config/config.c; and of the commands that make the storages which the
paths depend on, engine/storage/storage_mgr.c.

Characters are byte values without NUL, a path is the C string without its NUL. -/
namespace Verif
namespace Paths

/-- '/' -/
def slash : Nat := 47

/-- snprintf and vsnprintf into an array of `size` bytes: what does not fit is
left out.  (The results are never looked at, so that this is all they do.) -/
def snprintf (size : Nat) (s : List Nat) : List Nat := s.take (size - 1)

/-- PATH_MAX of linux/limits.h. -/
def PATH_MAX : Nat := 4096

/-- `struct Source`, cloud/cloud/source.h:35-50: name, uuid and path only. -/
structure Source where
  name : List Nat
  uuid : Uuid
  path : List Nat
deriving Repr, DecidableEq

/-- The directory in which the directory of the storage is: the three cases of
source_pathfmt, source.h:345-363.  `base` is config_directory(). -/
def root (base : List Nat) (s : Source) : List Nat :=
  match s.path with
  | [] => base
  | c :: cs => if c = slash then c :: cs else base ++ slash :: c :: cs

/-- source_pathfmt, source.h:331-364, with `path_size` PATH_MAX as in all calls;
`rel` is what `fmt` and its arguments print. -/
def source_pathfmt (base : List Nat) (s : Source) (rel : List Nat) : List Nat :=
  let relative := snprintf 512 rel
  snprintf PATH_MAX (root base s ++ slash :: (Uuid.text s.uuid ++ slash :: relative))

/-- id_path, cloud/cloud/id.h:34-66, for the states which do not abort. -/
def id_path (base : List Nat) (s : Source) (min : Nat) (state : FState) : List Nat :=
  source_pathfmt base s (FileName.idName min state)

/-- "mock/" -/
def sMock : List Nat := [109, 111, 99, 107, 47]

/-- mock_path, cloud/cloud/mock.c:20-25. -/
def mock_path (base : List Nat) (s : Source) (min : Nat) : List Nat :=
  source_pathfmt base s (sMock ++ FileName.decPad 20 min)

/-- "/wal/" -/
def sWalDir : List Nat := [47, 119, 97, 108, 47]
/-- ".wal" -/
def sWal : List Nat := [46, 119, 97, 108]

/-- The path of a log file, engine/wal/wal_file.h:42-45, 52-55 and wal.c:119-121. -/
def wal_path (base : List Nat) (id : Nat) : List Nat :=
  snprintf PATH_MAX (base ++ sWalDir ++ FileName.decPad 20 id ++ sWal)

/-- "/config.json" -/
def sConfig : List Nat := [47, 99, 111, 110, 102, 105, 103, 46, 106, 115, 111, 110]
/-- ".old" -/
def sOld : List Nat := [46, 111, 108, 100]
/-- "/log" -/
def sLog : List Nat := [47, 108, 111, 103]

/-- main_prepare, main/main/main.c:150-151. -/
def config_path (base : List Nat) : List Nat := snprintf PATH_MAX (base ++ sConfig)

/-- config_save, runtime/config/config.c:261-271, and fs_rename and fs_unlink,
runtime/runtime/fs.h:26-64, which print into an array of PATH_MAX bytes. -/
def old_path (base : List Nat) : List Nat := snprintf PATH_MAX (config_path base ++ sOld)

/-- main_prepare, main/main/main.c:160. -/
def log_path (base : List Nat) : List Nat := snprintf PATH_MAX (base ++ sLog)

/-! The storages. -/

/-- "main" -/
def sMain : List Nat := [109, 97, 105, 110]

/-- storage_mgr_find, engine/storage/storage_mgr.c:384-394. -/
def find (l : List Source) (name : List Nat) : Option Source := l.find? fun s => s.name == name

/-- storage_mgr_create, storage_mgr.c:186-208, without the cloud and with mkdir
succeeding. -/
def storage_mgr_create (l : List Source) (s : Source) (if_not_exists : Bool) : Res (List Source) :=
  match find l s.name with
  | some _ => if if_not_exists then .ok l else .err "storage: already exists"
  | none => .ok (l ++ [s])

/-- Remove the first storage with this name, the one which storage_mgr_find finds
(list_unlink, storage_mgr.c:239). -/
def unlink (name : List Nat) : List Source → List Source
  | [] => []
  | s :: l => if s.name = name then l else s :: unlink name l

/-- Change the first storage with this name. -/
def change (name : List Nat) (f : Source → Source) : List Source → List Source
  | [] => []
  | s :: l => if s.name = name then f s :: l else s :: change name f l

/-- storage_mgr_drop, storage_mgr.c:210-245; `busy` tells whether the storage has
references or partitions. -/
def storage_mgr_drop (l : List Source) (name : List Nat) (if_exists busy : Bool) : Res (List Source) :=
  if name = sMain then .err "storage: main storage cannot be dropped"
  else match find l name with
  | none => if if_exists then .ok l else .err "storage: not exists"
  | some _ => if busy then .err "storage: has dependencies" else .ok (unlink name l)

/-- storage_mgr_alter, storage_mgr.c:247-330, for a new path (the uuid cannot be
changed, main/command/parse_storage.c:266-267; the other settings are not in the
paths); `busy` tells whether the storage has partitions. -/
def storage_mgr_alter (l : List Source) (name path : List Nat) (if_exists busy : Bool) : Res (List Source) :=
  match find l name with
  | none => if if_exists then .ok l else .err "storage: not exists"
  | some _ => if busy then .err "storage: storage is not empty"
    else .ok (change name (fun s => { s with path := path }) l)

/-- storage_mgr_rename, storage_mgr.c:332-356. -/
def storage_mgr_rename (l : List Source) (name name_new : List Nat) (if_exists : Bool) : Res (List Source) :=
  if name = sMain then .err "storage: main storage cannot be renamed"
  else match find l name with
  | none => if if_exists then .ok l else .err "storage: not exists"
  | some _ => match find l name_new with
    | some _ => .err "storage: already exists"
    | none => .ok (change name (fun s => { s with name := name_new }) l)

/-- The commands on storages, with what the parser made of their options: the
uuid of CREATE STORAGE is a new one unless the option says otherwise
(main/command/parse_storage.c:54-58, 186-189). -/
inductive Cmd where
  | create (s : Source) (if_not_exists : Bool)
  | drop (name : List Nat) (if_exists busy : Bool)
  | alter (name path : List Nat) (if_exists busy : Bool)
  | rename (name name_new : List Nat) (if_exists : Bool)
deriving Repr, DecidableEq

/-- One command. -/
def exec (l : List Source) : Cmd → Res (List Source)
  | .create s i => storage_mgr_create l s i
  | .drop n i b => storage_mgr_drop l n i b
  | .alter n p i b => storage_mgr_alter l n p i b
  | .rename n m i => storage_mgr_rename l n m i

/-- Commands one after the other; a command which fails changes nothing. -/
def execs : List Source → List Cmd → List Source
  | l, [] => l
  | l, c :: cs => match exec l c with
    | .ok l => execs l cs
    | _ => execs l cs

/-- The storages of an environment: main first (storage_mgr_create_main,
storage_mgr.c:87-114, with the uuid of the environment and without a path), then
the commands. -/
def storages (uuid : Uuid) (cs : List Cmd) : List Source := execs [⟨sMain, uuid, []⟩] cs

end Paths
end Verif
