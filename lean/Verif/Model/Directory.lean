/-!
Which environment has a directory: the directory lock of main/main/main.c and
the handles of main/api/monotone.c, in any number of processes.
-/
namespace Verif.Directory

/-- An open file description of the system (open(2)): what `flock` locks.  `env`
and `proc` record who opened it. -/
structure Desc where
  no : Nat
  env : Nat
  proc : Nat
  dir : Nat
  locked : Bool
deriving Repr, DecidableEq

/-- monotone_t, main/api/monotone.c:25-29, of which `lock_directory.fd`
(main/main/main.h:21, runtime/runtime/file.h:18-24) is kept; `none` is -1. -/
structure Env where
  id : Nat
  proc : Nat
  fd : Option Nat
deriving Repr, DecidableEq

/-- All processes of the machine.  Directories are numbered by their inode. -/
structure World where
  descs : List Desc := []
  envs : List Env := []
  nextDesc : Nat := 0
  nextEnv : Nat := 0
deriving Repr, DecidableEq

/-- How far the steps of main_start other than taking the lock succeed. -/
inductive Luck where
  /-- mkdir or stat fails: fs_mkdir (main/main/main.c:139-142), file_open_as
  (runtime/runtime/file.h:50-60) before the open -/
  | noDir
  /-- open(2) fails: runtime/runtime/file.h:62-65 -/
  | noOpen
  /-- flock(2) fails with another error than EWOULDBLOCK: runtime/runtime/file.h:104-110 -/
  | noLock
  /-- something after the lock fails: main/main/main.c:149-170,220-255 -/
  | later
  | fine
deriving Repr, DecidableEq

/-- What a call answers. -/
inductive Answer where
  /-- the handle does not exist (the call is undefined in C) -/
  | noHandle
  /-- failed before the lock was taken -/
  | failed
  /-- "in use by another process", main/main/main.c:146-147 -/
  | inUse
  /-- failed after the lock was taken -/
  | failedInside
  | done
deriving Repr, DecidableEq

namespace World

/-- flock(fd, LOCK_EX|LOCK_NB), runtime/runtime/vfs.c:59-63, called by file_lock
(runtime/runtime/file.h:100-113): refused if another open file description of
the same directory has the lock. -/
def canLock (w : World) (d : Nat) : Bool := w.descs.all fun c => !(decide (c.dir = d) && c.locked)

/-- The `fd` of a handle is assigned. -/
def setFd (w : World) (e : Nat) (fd : Option Nat) : List Env :=
  w.envs.map fun v => if v.id = e then { v with fd := fd } else v

/-- monotone_init, main/api/monotone.c:44-64: main_init calls file_init
(main/main/main.c:80, runtime/runtime/file.h:26-32). -/
def init (w : World) (proc : Nat) : World :=
  { w with
    envs := w.envs ++ [⟨w.nextEnv, proc, none⟩]
    nextEnv := w.nextEnv + 1 }

/-- monotone_open, main/api/monotone.c:122-135, as far as the directory is
concerned: main_deploy, main/main/main.c:117-170.  An environment that is
already open is only logged (main.c:120-121); file_open_as
(runtime/runtime/file.h:47-66) assigns `fd` without closing the old one.  Nothing
is undone when the call fails. -/
def open_ (w : World) (e d : Nat) (luck : Luck) : World × Answer :=
  match w.envs.find? (fun v => decide (v.id = e)) with
  | none => (w, .noHandle)
  | some v =>
    if luck = .noDir then (w, .failed)
    else if luck = .noOpen then ({ w with envs := w.setFd e none }, .failed)
    else
      let lock := decide (luck ≠ .noLock) && w.canLock d
      let w' := { w with
        descs := w.descs ++ [⟨w.nextDesc, e, v.proc, d, lock⟩]
        envs := w.setFd e (some w.nextDesc)
        nextDesc := w.nextDesc + 1 }
      if luck = .noLock then (w', .failed)
      else if lock then (w', if luck = .fine then .done else .failedInside)
      else (w', .inUse)

/-- monotone_free, main/api/monotone.c:66-112: main_free closes `lock_directory`
(main/main/main.c:107, file_close, runtime/runtime/file.h:89-98), which ends the
lock of its open file description. -/
def free (w : World) (e : Nat) : World × Answer :=
  match w.envs.find? (fun v => decide (v.id = e)) with
  | none => (w, .noHandle)
  | some v =>
    ({ w with
       descs := match v.fd with
         | none => w.descs
         | some n => w.descs.filter (fun c => decide (c.no ≠ n))
       envs := w.envs.filter (fun v => decide (v.id ≠ e)) }, .done)

/-- The end of a process: the system closes its descriptors. -/
def exit (w : World) (p : Nat) : World :=
  { w with
    descs := w.descs.filter (fun c => decide (c.proc ≠ p))
    envs := w.envs.filter (fun v => decide (v.proc ≠ p)) }

end World

end Verif.Directory
