import Verif.Model.Basic

/-!
Model of the descriptors of the files of an environment: which `struct File`
(runtime/runtime/file.h:17-23), log file and directory handle holds which
descriptor, through every step of open, recovery, refresh, download, upload, drop,
rotation of the log and close, with every call that may fail failing at will.

Simplifications: descriptors are numbered as they are handed out and a number is
never used again (the kernel hands out the lowest free one, so a descriptor closed
twice may be somebody else's by then); each operation runs on its own, under the
locks it takes; the bytes of the files are left out, one result of `check` stands
for every step between two changes of a descriptor that may throw; memory
allocation succeeds; the storages have a cloud; the descriptors of random_open
(runtime/lib/random.c) and of libcurl are left out.
-/
namespace Verif.Descr

/-- Who holds a descriptor. -/
inductive Slot where
  /-- `lock_directory` of `struct Main`, main/main/main.h. -/
  | lock
  /-- `fd` of `struct Logger`, runtime/runtime/logger.h. -/
  | log
  /-- The file of `current` of `struct Wal`, engine/wal/wal.h. -/
  | wal
  /-- The file of the local `file_prev` of wal_rotate, engine/wal/wal.c:83. -/
  | walPrev
  /-- The file of the local `file` of wal_rotate, engine/wal/wal.c:64. -/
  | walNew
  /-- The file of the WalCursor of main_replay, main/main/main.c:176. -/
  | cursor
  /-- The directory handle of engine_recover_storage and wal_recover
  (engine/engine/engine_recover.c:73, engine/wal/wal.c:151). -/
  | dir
  /-- A local `File file`. -/
  | tmp
  /-- The file of the partition of a storage that is not in the mapping yet:
  `list` of `struct Storage`, engine/storage/storage.h. -/
  | found (id : Nat)
  /-- The file of the partition of the reference that starts at `id`. -/
  | part (id : Nat)
  /-- The file of `merger.part` of the `Refresh` of worker `r` (engine/io/merger.h). -/
  | merged (r : Nat)
  /-- The file of `origin` of the `Refresh` of worker `r` (engine/engine/refresh.h),
  from when the reference has the new partition. -/
  | origin (r : Nat)
deriving DecidableEq, Repr

/-- The states of a partition that matter here, engine/io/part.h: ID and ID_CLOUD. -/
structure Part where
  id : Bool
  cloud : Bool
deriving DecidableEq, Repr

/-- An environment. -/
structure World where
  /-- The descriptors that are open. -/
  fds : List Nat
  /-- The number of the next descriptor. -/
  next : Nat
  /-- The descriptors that flock has been called with. -/
  locks : List Nat
  /-- The descriptor a holder has; -1 is `none`. -/
  files : Slot → Option Nat
  /-- The references in the mapping. -/
  refs : List (Nat × Part)
  /-- The partitions in the lists of the storages that are not in the mapping. -/
  stored : List (Nat × Part)
  /-- How many workers there are. -/
  workers : Nat
  /-- The results of the calls to come; when there are no more they succeed. -/
  io : List Bool

/-- How a function ends: it returns, it throws, or it has called close with a
descriptor that is not open. -/
inductive Out (α : Type) where
  | ok (a : α) (w : World)
  | err (w : World)
  | bad

/-- A function of the environment. -/
def M (α : Type) : Type := World → Out α

/-- One after the other. -/
def M.bind {α β : Type} (m : M α) (f : α → M β) : M β := fun w =>
  match m w with
  | .ok a w => f a w
  | .err w => .err w
  | .bad => .bad

instance : Monad M where
  pure a := fun w => .ok a w
  bind := M.bind

/-- error, runtime/runtime/exception.h. -/
def throw_ {α : Type} : M α := fun w => .err w

/-- A function that cannot fail. -/
def modify_ (f : World → World) : M Unit := fun w => .ok () (f w)

/-- The result of the next call. -/
def sys : M Bool := fun w => .ok (w.io.headD true) { w with io := w.io.tail }

/-- A choice inside a function. -/
def choose (c : Bool) (a b : M Unit) : M Unit := if c then a else b

/-- A step that throws if it fails and leaves the descriptors as they are. -/
def check : M Unit := do
  if ← sys then pure () else throw_

/-- `f` with `d` for `s`. -/
def put (s : Slot) (d : Option Nat) (w : World) : World :=
  { w with files := fun t => if t = s then d else w.files t }

/-- file_init, runtime/runtime/file.h:25-31: the descriptor, if there is one, is
forgotten. Also the end of the life of a holder that is not closed. -/
def fileInit (s : Slot) : M Unit := modify_ (put s none)

/-- vfs_open as called by file_open_as, runtime/runtime/file.h:62-65: the field gets
the result, -1 too. Also opendir and vfs_open in logger_open. -/
def fileCreate (s : Slot) : M Unit := do
  if ← sys then
    modify_ fun w => put s (some w.next) { w with fds := w.next :: w.fds, next := w.next + 1 }
  else do
    fileInit s
    throw_

/-- file_open and file_open_directory, runtime/runtime/file.h:47-80: the size first,
which may throw. -/
def fileOpen (s : Slot) : M Unit := do
  check
  fileCreate s

/-- file_close, runtime/runtime/file.h:89-97. -/
def fileClose (s : Slot) : M Unit := fun w =>
  match w.files s with
  | none => .ok () w
  | some d => if d ∈ w.fds then .ok () (put s none { w with fds := w.fds.erase d }) else .bad

/-- guard(file_close, &file), runtime/runtime/guard.h: the file is closed at the end
and when something throws. -/
def guarded (s : Slot) (m : M Unit) : M Unit := fun w =>
  match m w with
  | .ok _ w => fileClose s w
  | .err w => (do fileClose s; throw_ : M Unit) w
  | .bad => .bad

/-- A block between enter and leave whose handler closes `s` and throws again. -/
def onError (s : Slot) (m : M Unit) : M Unit := fun w =>
  match m w with
  | .ok a w => .ok a w
  | .err w => (do fileClose s; throw_ : M Unit) w
  | .bad => .bad

/-- file_lock, runtime/runtime/file.h:100-112: flock with LOCK_EX|LOCK_NB, which fails as
long as another open descriptor has the lock, of this process or another. -/
def fileLock (s : Slot) : M Unit := do
  check
  fun w => match w.files s with
    | none => .err w
    | some d =>
      if w.locks.any fun e => e ≠ d ∧ e ∈ w.fds then .err w
      else .ok () { w with locks := d :: w.locks }

/-- A file read or written as a whole: file_import (runtime/runtime/file.h:268-281),
config_save_to (runtime/config/config.c:227-252), mock_read
(cloud/cloud/mock.c:158-174), s3_download and s3_upload
(cloud/s3/s3.c:115-190). -/
def temporary (create : Bool) : M Unit := do
  fileInit .tmp
  guarded .tmp (do
    choose create (fileCreate .tmp) (fileOpen .tmp)
    check)

/-- mock_download and mock_upload, cloud/cloud/mock.c:75-144: one file is read, then
the other is written. -/
def copy : M Unit := do
  check
  temporary false
  check
  temporary true

/-- part_open(ID) with index_open, engine/io/part.c:53-65 and
engine/io/index_op.c:21-71: the file is open when the checks of its footer throw. -/
def partOpen (s : Slot) : M Unit := do
  fileOpen s
  check

/-- part_open(ID_CLOUD), engine/io/part.c:66-77. -/
def partOpenCloud : M Unit := temporary false

/-- part_create(ID_CLOUD_INCOMPLETE), engine/io/part.c:97-130. -/
def partCreateCloud : M Unit := do
  fileInit .tmp
  guarded .tmp (do
    fileOpen .tmp
    check
    fileClose .tmp
    fileInit .tmp
    fileCreate .tmp
    check
    fileClose .tmp)

/-- mapping_match, engine/io/mapping.h. -/
def find (id : Nat) (w : World) : Option Part := (w.refs.find? fun x => x.1 = id).map (·.2)

/-- part_set and part_unset, engine/io/part.h. -/
def setPart (id : Nat) (p : Part) (w : World) : World :=
  { w with refs := w.refs.map fun x => if x.1 = id then (id, p) else x }

/-- engine_lock, engine/engine/engine.c:108-168, by an operation on a partition;
without the partition there is an error (or nothing, which is the same here). -/
def onPart (id : Nat) (f : Part → M Unit) : M Unit := fun w =>
  match find id w with
  | some p => f p w
  | none => .err w

/-- engine_create, engine/engine/op.c:25-66: a partition without a file. -/
def create (id : Nat) : M Unit := fun w =>
  match find id w with
  | some _ => .ok () w
  | none => .ok () (put (.part id) none { w with refs := (id, ⟨false, false⟩) :: w.refs })

/-- engine_download, engine/engine/op.c:325-384, and part_download,
engine/io/part.c:164-175. -/
def download (id : Nat) : M Unit := onPart id fun p =>
  if p.id ∨ p.cloud = false then pure ()
  else do
    copy
    partOpen (.part id)
    modify_ (setPart id { p with id := true })

/-- engine_upload, engine/engine/op.c:394-454, and part_upload,
engine/io/part.c:177-194. -/
def upload (id : Nat) : M Unit := onPart id fun p =>
  if p.cloud then pure ()
  else if p.id = false then throw_
  else do
    check
    partCreateCloud
    copy
    check
    modify_ (setPart id { p with cloud := true })

/-- The part of engine_drop_file on the cloud, engine/engine/op.c:199-206. -/
def dropCloud (id : Nat) : M Unit := onPart id fun p =>
  if p.cloud then do
    check
    modify_ (setPart id { p with cloud := false })
  else pure ()

/-- The part of engine_drop_file on the storage, engine/engine/op.c:208-215, with
part_offload, engine/io/part.c:196-206. -/
def dropStorage (id : Nat) : M Unit := onPart id fun p =>
  if p.id then do
    fileClose (.part id)
    check
    modify_ (setPart id { p with id := false })
  else pure ()

/-- engine_drop_reference, engine/engine/op.c:239-288, with ref_free
(engine/engine/ref.h:35-41) and part_free (engine/io/part.c:43-51). -/
def dropReference (id : Nat) : M Unit := onPart id fun p =>
  if p.id ∨ p.cloud then pure ()
  else do
    fileClose (.part id)
    modify_ fun w => { w with refs := w.refs.filter fun x => x.1 ≠ id }
    check

/-- refresh_reset and merger_reset, engine/engine/refresh.c:43-53 and
engine/io/merger.c:40-52: the pointer to the old partition is forgotten, the file
of the new one is closed. Also refresh_free (37-41). -/
def refreshReset (r : Nat) : M Unit := do
  fileInit (.origin r)
  fileClose (.merged r)

/-- refresh_apply, engine/engine/refresh.c:134-166: the reference gets the new
partition. -/
def apply (r id : Nat) (w : World) : World :=
  put (.merged r) none (put (.part id) (w.files (.merged r)) (put (.origin r) (w.files (.part id)) w))

/-- engine_refresh from refresh_reset on (engine/engine/op.c:475-476), refresh_run
with refresh_merge, merger_execute and refresh_end (engine/engine/refresh.c:55-237,
engine/io/merger.c:99-128). -/
def refresh (r id : Nat) : M Unit := do
  refreshReset r
  onPart id fun p =>
    if p.cloud then throw_
    else do
      check
      fileInit (.merged r)
      fileCreate (.merged r)
      check
      modify_ (apply r id)
      modify_ (setPart id { p with id := true })
      check
      fileClose (.origin r)
      check
      fileInit (.origin r)
      check

/-- execute_partition_refresh, main/main/execute.c:434-450, and the other commands
that refresh (221-249, 396-432, 452-468): a `Refresh` of their own, freed at the end
and when something throws. It has the number that comes after the workers. -/
def refreshCommand (id : Nat) : M Unit := fun w =>
  match refresh w.workers id w with
  | .ok _ w => refreshReset w.workers w
  | .err w => (do refreshReset w.workers; throw_ : M Unit) w
  | .bad => .bad

/-- wal_rotate, engine/wal/wal.c:51-97, when the log is ready to be rotated; `sync`
is wal_sync_on_rotate with sync. The local pointers are gone when it ends. -/
def rotate (sync : Bool) : M Unit := do
  fileInit .walNew
  onError .walNew (fileCreate .walNew)
  modify_ fun w => put .walNew none (put .wal (w.files .walNew) (put .walPrev (w.files .wal) w))
  choose sync check (pure ())
  fileClose .walPrev

/-- wal_recover, engine/wal/wal.c:147-167, and the reading of a directory in
engine_recover_storage, engine/engine/engine_recover.c:64-113. -/
def readDir : M Unit := do
  fileInit .dir
  guarded .dir (do
    fileCreate .dir
    check)

/-- wal_open, engine/wal/wal.c:169-196; `files` tells if there are files of the log. -/
def walOpen (files sync : Bool) : M Unit := do
  check
  readDir
  choose files
    (do
      fileInit .wal
      fileOpen .wal
      check)
    (rotate sync)

/-- wal_cursor_next until the end of the log, engine/wal/wal_cursor.c:83-118, with
`n` more files after the one that is open; the operations of the log come in
between. -/
def walNext : Nat → M Unit
  | 0 => check
  | n + 1 => do
    check
    fileClose .cursor
    fileInit .cursor
    fileOpen .cursor
    walNext n

/-- main_replay, main/main/main.c:173-209, with wal_cursor_open and
wal_cursor_close (engine/wal/wal_cursor.c:32-75), for a log of `n + 1` files. The
drops it replays are operations of their own here. -/
def replay (n : Nat) : M Unit := do
  fileInit .cursor
  guarded .cursor (do
    fileOpen .cursor
    walNext n)

/-- The partitions found by engine_recover_storage, engine/engine/engine_recover.c:
98-111. -/
def foundParts (ps : List (Nat × Part)) (w : World) : World :=
  { w with stored := ps, files := fun s => match s with
    | .found id => if ps.any fun x => x.1 = id then none else w.files (.found id)
    | s => w.files s }

/-- The loop of engine_recover that opens the partitions, engine/engine/
engine_recover.c:221-250: the partition is in the list of its storage, and only
after it is open it gets a reference. -/
def openParts : List (Nat × Part) → M Unit
  | [] => pure ()
  | (id, p) :: ps => do
    fileInit (.found id)
    choose p.id (partOpen (.found id)) partOpenCloud
    modify_ fun w =>
      put (.found id) none (put (.part id) (w.files (.found id))
        { w with refs := (id, p) :: w.refs, stored := w.stored.filter fun x => x.1 ≠ id })
    openParts ps

/-- worker_mgr_start with worker_init, engine/engine/worker_mgr.c:31-54 and
engine/engine/worker.c:41-49: refresh_init for every worker. -/
def startWorkers (n : Nat) (w : World) : World :=
  { w with workers := n, files := fun s => match s with
    | .merged _ => none
    | .origin _ => none
    | s => w.files s }

/-- How an environment is opened: what is in its directory and in its settings. -/
structure Start where
  /-- There is a config.json. -/
  config : Bool
  /-- log_to_file. -/
  log : Bool
  /-- The partitions of the storages. -/
  parts : List (Nat × Part)
  /-- The setting wal. -/
  wal : Bool
  /-- The number of files of the log. -/
  walFiles : Nat
  /-- wal_sync_on_rotate with sync. -/
  sync : Bool
  /-- workers and workers_upload. -/
  workers : Nat

/-- main_start, main/main/main.c:211-256, with main_deploy (117-171), engine_recover
(engine/engine/engine_recover.c:202-251) and worker_mgr_start
(engine/engine/worker_mgr.c:31-54). -/
def start (a : Start) : M Unit := do
  check
  fileOpen .lock
  fileLock .lock
  temporary (! a.config)
  check
  choose a.log (fileCreate .log) (pure ())
  check
  readDir
  modify_ (foundParts a.parts)
  check
  openParts a.parts
  choose a.wal
    (do
      walOpen (0 < a.walFiles) a.sync
      replay (a.walFiles - 1))
    (pure ())
  modify_ (startWorkers a.workers)
  check

/-- engine_close, engine/engine/engine.c:64-76: every reference of the mapping. -/
def closeParts : List (Nat × Part) → M Unit
  | [] => pure ()
  | (id, _) :: ps => do
    fileClose (.part id)
    closeParts ps

/-- worker_mgr_stop, engine/engine/worker_mgr.c:56-67: refresh_free of every worker. -/
def stopWorkers : Nat → M Unit
  | 0 => pure ()
  | n + 1 => do
    refreshReset n
    stopWorkers n

/-- storage_mgr_free and storage_free, engine/storage/storage_mgr.c:30-38 and
engine/storage/storage.h:30-38: the lists of partitions go with the storages. -/
def forgetStored (w : World) : World :=
  { w with stored := [], files := fun s => match s with
    | .found _ => none
    | s => w.files s }

/-- monotone_free, main/api/monotone.c:66-82: main_stop (main/main/main.c:258-270) and
main_free (95-108). -/
def free : M Unit := do
  fun w => stopWorkers w.workers w
  modify_ fun w => { w with workers := 0 }
  fun w => closeParts w.refs w
  modify_ fun w => { w with refs := [] }
  fileClose .log
  modify_ forgetStored
  fileClose .wal
  fileClose .lock

/-- The operations: what the functions of the library and the workers do to the
files. -/
inductive Op where
  | start (a : Start)
  | create (id : Nat)
  | download (id : Nat)
  | upload (id : Nat)
  | dropCloud (id : Nat)
  | dropStorage (id : Nat)
  | dropReference (id : Nat)
  | refresh (r id : Nat)
  | refreshCommand (id : Nat)
  | rotate (sync : Bool)
  | temporary (create : Bool)
  | free

/-- An operation; a refresh is one of a worker there is. -/
def run : Op → M Unit
  | .start a => start a
  | .create id => create id
  | .download id => download id
  | .upload id => upload id
  | .dropCloud id => dropCloud id
  | .dropStorage id => dropStorage id
  | .dropReference id => dropReference id
  | .refresh r id => fun w => if r < w.workers then refresh r id w else .err w
  | .refreshCommand id => refreshCommand id
  | .rotate sync => rotate sync
  | .temporary c => temporary c
  | .free => free

/-- main_init, main/main/main.c:50-93: nothing is open. -/
def init : World where
  fds := []
  next := 0
  locks := []
  files := fun _ => none
  refs := []
  stored := []
  workers := 0
  io := []

/-- An operation that is called, with the results of the calls it makes; what it
throws ends at the function of the library, the flag tells. The local variables are
gone then. `none`: a descriptor that is not open has been closed. -/
def step (w : World) (op : Op) (io : List Bool) : Option (World × Bool) :=
  match run op { w with io := io } with
  | .ok _ w => some (put .walPrev none w, false)
  | .err w => some (put .walPrev none w, true)
  | .bad => none

/-- A history of operations: the environment after it, and which of them have thrown. -/
def runs : World → List (Op × List Bool) → Option (World × List Bool)
  | w, [] => some (w, [])
  | w, (op, io) :: h => (step w op io).bind fun (w, b) => (runs w h).map fun (w, bs) => (w, b :: bs)

end Verif.Descr
