import Verif.Model.Basic

/-!
Model of the locks a thread holds while steps fail: engine/engine/engine.c,
lockage.h, op.c, refresh.c, write.c, service.h, engine_show.c, worker.c,
engine/wal/wal.c, wal_id.h, wal_cursor.c, runtime/lib/memory_mgr.h,
main/main/execute.c, main.c and main/api/monotone.c.

One thread is followed.  Nothing of the data is kept: every condition on data is
answered by a function of the number of the step, and so is the failure of every
step that may fail.  The theorems are about all such functions, so they cover
whatever the data are and whatever other threads do to them between two steps.

`error()` goes to the nearest `leave` (runtime/runtime/exception.h) and runs the
guards on its way; locks without a guard stay.

Left out: waiting for other threads (C31, C32, C59), cursors (C78), and what
lockage.h does when a thread takes a partition lock that it has (C31); here it
counts.  Guards that only free memory are left out; memory is C27, C36, C43, C76.
-/
namespace Verif.Hold

/-- What a thread may hold. -/
inductive Lock where
  /-- the control lock, shared or exclusive: `lock` of `struct Main`,
  main/main/main.c:36-48, runtime/config/global.h:136-159 -/
  | shared | exclusive
  /-- `lock` of `struct Engine`, engine/engine/engine.h -/
  | mutex
  /-- LOCK_ACCESS and LOCK_SERVICE of partition `i`, engine/engine/lockage.h:19-24 -/
  | access (i : Nat) | service (i : Nat)
  /-- `lock` of `struct Service`, engine/engine/service.h:24-32 -/
  | queue
  /-- `lock` of `struct Wal`, engine/wal/wal.h -/
  | wal
  /-- the spinlock of `struct WalId`, engine/wal/wal_id.h:18-23 -/
  | walId
  /-- `lock` of `struct MemoryMgr`, runtime/lib/memory_mgr.h -/
  | memory
deriving DecidableEq, Repr

/-- Steps that may fail, by what they do and where. -/
inductive Site where
  /-- service_req_allocate, engine/engine/service_req.h:46-57: from engine_commit
  (write.c:61), and from anywhere else -/
  | commitRequest | request
  /-- buf_reserve in wal_id_add, wal_id.h:48-51: from wal_rotate (wal.c:86), and
  from wal_recover (wal.c:165) -/
  | rotateId | recoverId
  /-- str_copy in engine_rebalance_tier, op.c:540 -/
  | tierName
  /-- log_add with no record in the log yet, or the check of a key before it
  (write.c:87-96, 152); the same with records in the log -/
  | firstRecord | record
  /-- event_allocate and event_copy (write.c:104, 171): the event is larger than a
  page; there is no page; iov_add in log_add_event (engine/wal/log.h:106-117) -/
  | large | event | iov
  /-- memtable_page_allocate: the first page of a table, or one more
  (engine/io/memtable.c) -/
  | firstPage | morePage
  /-- anything else: memory, files, the network, wrong arguments -/
  | other
deriving DecidableEq, Repr

/-- Which steps fail, and the answers to questions about data. -/
structure World where
  fails : Site → Nat → Bool
  says : Nat → Nat

/-- `struct LogOp`, engine/wal/log.h:19-24: the partition, whether `event` and
`prev` are set, and whether the record's table had no page when memtable_set was
called and has none since. -/
structure Op where
  ref : Option Nat
  event : Bool
  prev : Bool
  bare : Bool
deriving DecidableEq, Repr

/-- What is done to a lock. -/
inductive Act where
  | take (l : Lock)
  | give (l : Lock)
deriving DecidableEq, Repr

/-- Number of the next step, locks held (last first), what was done to locks and
what was held before (last first), the records of the log (last first), and whether
the buffer of the log was ever allocated (engine/wal/log.h:26-39). -/
structure St where
  tick : Nat
  held : List Lock
  acts : List (Act × List Lock)
  log : List Op
  logBuf : Bool
deriving DecidableEq, Repr

/-- How a computation ends: with a result; by `error()`; with undefined behaviour;
waiting for a lock the thread itself has; in a loop that has had all its turns. -/
inductive Out (α : Type) where
  | ok (a : α) (s : St)
  | throw (s : St)
  | ub (s : St)
  | stuck (l : Lock) (s : St)
  | spin
deriving DecidableEq, Repr

def M (α : Type) : Type := World → St → Out α

def M.pure {α : Type} (a : α) : M α := fun _ s => .ok a s

def M.bind {α β : Type} (x : M α) (k : α → M β) : M β := fun w s =>
  match x w s with
  | .ok a s => k a w s
  | .throw s => .throw s
  | .ub s => .ub s
  | .stuck l s => .stuck l s
  | .spin => .spin

instance : Monad M where
  pure := M.pure
  bind := M.bind

/-- `if (enter(&e)) { x } if (leave(&e))`, runtime/runtime/exception.h. -/
def attempt {α : Type} (x : M α) : M (Option α) := fun w s =>
  match x w s with
  | .ok a s => .ok (some a) s
  | .throw s => .ok none s
  | .ub s => .ub s
  | .stuck l s => .stuck l s
  | .spin => .spin

/-- `guard(fin, …)`: `fin` runs when the block is left or by `error()`
(runtime/runtime/guard.h, exception.h; C50). -/
def guarded {α : Type} (x : M α) (fin : M Unit) : M α := fun w s =>
  match x w s with
  | .ok a s => (M.bind fin fun _ => M.pure a) w s
  | .throw s => (M.bind fin fun _ => fun _ s => .throw s) w s
  | .ub s => .ub s
  | .stuck l s => .stuck l s
  | .spin => .spin

/-- error(), rethrow(), runtime/runtime/error.h -/
def raise {α : Type} : M α := fun _ s => .throw s

/-- A loop that has had all its turns. -/
def spin {α : Type} : M α := fun _ _ => .spin

def undefined {α : Type} : M α := fun _ s => .ub s

/-- A step that may fail. -/
def fallible (x : Site) : M Unit := fun w s =>
  if w.fails x s.tick then .throw { s with tick := s.tick + 1 } else .ok () { s with tick := s.tick + 1 }

/-- A question about data. -/
def ask : M Nat := fun w s => .ok (w.says s.tick) { s with tick := s.tick + 1 }

/-- Whether something is wrong. -/
def wrong (x : Site) : M Bool := fun w s => .ok (w.fails x s.tick) { s with tick := s.tick + 1 }

/-- A condition on data. -/
def cond : M Bool := do
  let n ← ask
  pure (n != 0)

/-- A lock is taken: mutex_lock (runtime/runtime/mutex.h:35-39), spinlock_lock
(spinlock.h:35-39), rwlock_lock (rwlock.h:47-54), lockage_lock
(engine/engine/lockage.h:62-89).  Mutexes and spinlocks do not nest; a reader may
read again (glibc), but not write, and a writer neither.  Simplification: glibc
returns EDEADLK to a writer who locks again, which rwlock.h does not look at. -/
def take (l : Lock) : M Unit := fun _ s =>
  let blocked := match l with
    | .shared => s.held.contains .exclusive
    | .exclusive => s.held.contains .exclusive || s.held.contains .shared
    | .access _ => false
    | .service _ => false
    | l => s.held.contains l
  if blocked then .stuck l s
  else .ok () { s with held := l :: s.held, acts := (.take l, s.held) :: s.acts }

/-- A lock is given back: mutex_unlock (mutex.h:41-45), spinlock_unlock
(spinlock.h:41-45), lockage_unlock (lockage.h:91-111).  Undefined for one that the
thread does not have. -/
def give (l : Lock) : M Unit := fun _ s =>
  if s.held.contains l then .ok () { s with held := s.held.erase l, acts := (.give l, s.held) :: s.acts }
  else .ub s

/-- control_unlock, runtime/config/global.h:148-152, pthread_rwlock_unlock
(rwlock.h:56-60): whichever the thread has. -/
def control_unlock : M Unit := fun w s =>
  if s.held.contains .exclusive then give .exclusive w s else give .shared w s

def get : M St := fun _ s => .ok s s

def modify (g : List Op → List Op) : M Unit := fun _ s => .ok () { s with log := g s.log }

/-! ### engine/engine/service.h -/

/-- service_schedule, service.h:65-76, and service_shutdown, :56-63. -/
def service_schedule : M Unit := do
  take .queue
  give .queue

/-- service_add, service.h:78-91, for service_rotate, service_rebalance,
service_refresh, service_upload (:93-137). -/
def service_add (site : Site) : M Unit := do
  fallible site
  service_schedule

/-- service_next, service.h:190-215: `none` on shutdown, then whether a request was
found.  Waiting (cond_var_wait) gives the lock up and takes it again; it is left
out. -/
def service_next : M (Option Bool) := do
  take .queue
  let shutdown ← cond
  let found ← cond
  give .queue
  pure (if shutdown then none else some found)

/-! ### runtime/lib/memory_mgr.h and heaps -/

/-- memory_mgr_pop, memory_mgr.h:124-167.  A wait for a page is left out, as
waiting elsewhere. -/
def memory_mgr_pop : M Unit := do
  take .memory
  let cached ← cond
  if cached then give .memory
  else do
    let limit ← cond
    if limit then do
      -- limit_error
      let bad ← wrong .event
      give .memory
      if bad then raise else pure ()
    else do
      give .memory
      -- vfs_mmap
      fallible .event

/-- memory_mgr_push, memory_mgr.h:169-193, and memory_mgr_reset, :77-93, as far as the
lock goes. -/
def memory_mgr_push : M Unit := do
  take .memory
  give .memory

/-- heap_reset, runtime/lib/heap.h:35-47, in memtable_free (engine/io/memtable.c). -/
def memtable_free : M Unit := do
  let pages ← cond
  if pages then memory_mgr_push else pure ()

/-- part_free, engine/io/part.c:43-51: two tables; file_close does not fail
(runtime/runtime/file.h:87-96).  ref_free, engine/engine/ref.h:35-41. -/
def part_free : M Unit := do
  memtable_free
  memtable_free

/-- memory_mgr_show, memory_mgr.h:195-: the lock is given back before encoding. -/
def memory_mgr_show : M Unit := do
  take .memory
  give .memory
  fallible .other

/-! ### engine/wal/wal_id.h -/

/-- wal_id_add, wal_id.h:40-66. -/
def wal_id_add (site : Site) : M Unit := do
  take .walId
  let r ← attempt (fallible site)
  match r with
  | none => do
    give .walId
    raise
  | some _ => give .walId

/-- wal_id_min, wal_id_max, wal_id_stats, wal_id_find, wal_id_next,
wal_id.h:115-203: nothing in them fails. -/
def wal_id_look : M Unit := do
  take .walId
  give .walId

/-- wal_id_gc_between, wal_id.h:205-243; the result is the number of files. -/
def wal_id_gc_between : M Nat := do
  take .walId
  let i ← ask
  match i with
  | 0 => do
    give .walId
    pure 0
  | i + 1 => do
    let r ← attempt (fallible .other)
    give .walId
    match r with
    | none => raise
    | some _ => pure (i + 1)

/-! ### engine/wal/wal.c, engine/wal/wal_cursor.c -/

/-- wal_rotate, wal.c:51-99. -/
def wal_rotate : M Unit := do
  take .wal
  let ready ← cond
  if !ready then give .wal
  else do
    -- wal_file_allocate, wal_file_create
    let r ← attempt (do fallible .other; fallible .other)
    match r with
    | none => do
      give .wal
      raise
    | some _ => do
      wal_id_add .rotateId
      give .wal
      -- file_sync of the previous file
      fallible .other

/-- `n` times. -/
def times : Nat → M Unit → M Unit
  | 0, _ => pure ()
  | n + 1, x => do
    x
    times n x

/-- wal_gc, wal.c:101-125. -/
def wal_gc : M Unit := do
  let n ← wal_id_gc_between
  times n (fallible .other)

/-- wal_open, wal.c:169-196, with wal_recover, :147-167. -/
def wal_open : M Unit := do
  fallible .other
  fallible .other
  let n ← ask
  times n (wal_id_add .recoverId)
  let files ← cond
  if files then do
    wal_id_look
    fallible .other
    fallible .other
  else wal_rotate

/-- wal_write, wal.c:198-219, and wal_write_op, :221-242: true when the file is to be
rotated.  Writing and syncing may fail. -/
def wal_write : M Bool := do
  take .wal
  guarded (do
    fallible .other
    fallible .other
    cond) (give .wal)

/-- wal_cursor_next, wal_cursor.c:83-118; the number of turns of its loop is asked
for, too. -/
def wal_cursor_next : Nat → M Bool
  | 0 => spin
  | n + 1 => do
    fallible .other
    let read ← cond
    if read then pure true
    else do
      wal_id_look
      let more ← cond
      if !more then pure false
      else do
        fallible .other
        fallible .other
        wal_cursor_next n

/-- The loop of wal_cursor_open, wal_cursor.c:50-62. -/
def rewind : Nat → M Unit
  | 0 => spin
  | n + 1 => do
    let k ← ask
    let r ← wal_cursor_next k
    if !r then pure ()
    else do
      let reached ← cond
      if reached then pure () else rewind n

/-- wal_cursor_open, wal_cursor.c:32-63. -/
def wal_cursor_open : M Unit := do
  wal_id_look
  let found ← cond
  if !found then pure ()
  else do
    fallible .other
    fallible .other
    let n ← ask
    rewind n

/-- wal_show, wal.c:244-. -/
def wal_show : M Unit := do
  wal_id_look
  fallible .other

/-! ### engine/engine/engine.c, engine/engine/op.c -/

/-- engine_create, op.c:25-66; the storage and the mapping do not fail. -/
def engine_create : M Unit := do
  fallible .other
  fallible .other
  let empty ← cond
  if !empty then service_add .request else pure ()

/-- engine_fill_nolock, op.c:68-130. -/
def engine_fill_nolock : M Unit := do
  -- fill: invalid partition interval
  fallible .other
  let empty ← cond
  if empty then engine_create
  else do
    -- the gaps
    let n ← ask
    times n (fallible .other)
    let n ← ask
    times n engine_create

/-- engine_fill, op.c:132-143. -/
def engine_fill : M Unit := do
  take .shared
  guarded (do
    take .mutex
    guarded engine_fill_nolock (give .mutex)) control_unlock

/-- The search in engine_lock, engine.c:119-155: which partition, if any. -/
def engine_match (gte create : Bool) : M (Option Nat) := do
  let found ← cond
  let i ← ask
  if found then pure (some i)
  else if gte || !create then pure none
  else do
    engine_fill_nolock
    let head ← cond
    (if head then service_add .request else pure () : M Unit)
    let i ← ask
    pure (some i)

/-- engine_lock, engine.c:107-168.  With a partition, both guards are taken away
(`unguard`), the mutex is given back, the control lock and the partition's lock
stay. -/
def engine_lock (lock : Nat → Lock) (gte create : Bool) : M (Option Nat) := do
  take .shared
  let r ← attempt (do
    take .mutex
    let r ← attempt (do
      let r ← engine_match gte create
      match r with
      | none => pure none
      | some i => do
        take (lock i)
        pure (some i))
    -- guard(mutex_unlock), or mutex_unlock after unguard
    give .mutex
    match r with
    | none => raise
    | some r => pure r)
  match r with
  -- guard(control_unlock_guard)
  | none => do
    control_unlock
    raise
  | some none => do
    control_unlock
    pure none
  | some (some i) => pure (some i)

/-- engine_unlock, engine.c:170-180. -/
def engine_unlock (l : Lock) : M Unit := do
  take .mutex
  guarded (do
    give l
    control_unlock) (give .mutex)

/-- engine_foreach, op.c:145-162. -/
def engine_foreach : M Bool := do
  let r ← engine_lock .access true false
  match r with
  | none => pure false
  | some i => do
    engine_unlock (.access i)
    cond

/-- engine_drop_file, op.c:164-237. -/
def engine_drop_file (if_exists cloud_drop_local : Bool) : M Bool := do
  let r ← engine_lock .service false false
  match r with
  | none => if !if_exists then raise else pure false
  | some i => do
    let keep ← cond
    if cloud_drop_local && keep then do
      engine_unlock (.service i)
      pure false
    else do
      take .mutex
      take (.access i)
      give .mutex
      -- part_offload, twice
      let r ← attempt (do fallible .other; fallible .other)
      take .mutex
      give (.access i)
      give .mutex
      engine_unlock (.service i)
      match r with
      | none => raise
      | some _ => pure true

/-- engine_drop_reference, op.c:239-288. -/
def engine_drop_reference : M Bool := do
  take .exclusive
  let found ← cond
  if !found then do
    control_unlock
    pure true
  else do
    let files ← cond
    if files then do
      control_unlock
      pure false
    else do
      control_unlock
      part_free
      let wal ← cond
      if wal then do
        let rotate ← wal_write
        if rotate then do
          service_add .request
          pure true
        else pure true
      else pure true

/-- The loop of engine_drop, op.c:296-308. -/
def drop_loop (if_exists : Bool) : Nat → M Unit
  | 0 => spin
  | n + 1 => do
    let exists' ← engine_drop_file if_exists false
    if !exists' then pure ()
    else do
      let done ← engine_drop_reference
      if done then pure () else drop_loop if_exists n

/-- engine_drop, op.c:290-315; `whole`: the mask is ID|ID_CLOUD. -/
def engine_drop (if_exists whole : Bool) : M Unit := do
  if whole then do
    let n ← ask
    drop_loop if_exists n
  else do
    let _ ← engine_drop_file if_exists false
    pure ()

/-- The loops over a range: engine_drop_range (op.c:317-323), engine_download_range
(:386-392), engine_upload_range (:456-462), engine_refresh_range (:485-492). -/
def range (x : M Unit) : Nat → M Unit
  | 0 => spin
  | n + 1 => do
    let more ← engine_foreach
    if !more then pure ()
    else do
      x
      range x n

/-- The end of engine_download (op.c:362-383) and engine_upload (:432-453): the file
is carried over, the state is changed. -/
def transfer (i : Nat) : M Unit := do
  let r ← attempt (fallible .other)
  match r with
  | none => do
    engine_unlock (.service i)
    raise
  | some _ => do
    take .mutex
    take (.access i)
    give (.access i)
    give .mutex
    engine_unlock (.service i)

/-- engine_download, op.c:325-384. -/
def engine_download (if_exists if_cloud : Bool) : M Unit := do
  let r ← engine_lock .service false false
  match r with
  | none => if !if_exists then raise else pure ()
  | some i => do
    let cloud ← cond
    if !cloud then do
      engine_unlock (.service i)
      if !if_cloud then raise else pure ()
    else do
      let nothing ← cond
      if nothing then engine_unlock (.service i)
      else transfer i

/-- engine_upload, op.c:394-454. -/
def engine_upload (if_exists if_cloud : Bool) : M Unit := do
  let r ← engine_lock .service false false
  match r with
  | none => if !if_exists then raise else pure ()
  | some i => do
    let cloud ← cond
    if !cloud then do
      engine_unlock (.service i)
      if !if_cloud then raise else pure ()
    else do
      let uploaded ← cond
      if uploaded then engine_unlock (.service i)
      else do
        let loc ← cond
        if !loc then do
          engine_unlock (.service i)
          raise
        else transfer i

/-! ### engine/engine/refresh.c -/

/-- refresh_begin, refresh.c:54-115: the partition, unless there is nothing to do. -/
def refresh_begin (if_exists : Bool) : M (Option Nat) := do
  let r ← engine_lock .service false false
  match r with
  | none => if !if_exists then raise else pure none
  | some i => do
    let on_cloud ← cond
    if on_cloud then do
      engine_unlock (.service i)
      raise
    else do
      let no_storage ← cond
      if no_storage then do
        engine_unlock (.service i)
        raise
      else do
        let same ← cond
        if same then do
          engine_unlock (.service i)
          pure none
        else do
          take .mutex
          take (.access i)
          give (.access i)
          give .mutex
          pure (some i)

/-- refresh_apply, refresh.c:131-164: nothing in it fails. -/
def refresh_apply (i : Nat) : M Unit := do
  take .mutex
  take (.access i)
  give (.access i)
  give .mutex

/-- refresh_end, refresh.c:166-198. -/
def refresh_end : M Unit := do
  memtable_free
  fallible .other
  fallible .other
  fallible .other
  fallible .other
  part_free
  fallible .other
  fallible .other

/-- refresh_run, refresh.c:200-241; refresh_merge (:117-129) fails or not. -/
def refresh_run (if_exists : Bool) : M Unit := do
  let r ← refresh_begin if_exists
  match r with
  | none => pure ()
  | some i => do
    let r ← attempt (do
      fallible .other
      refresh_apply i
      refresh_end)
    engine_unlock (.service i)
    match r with
    | none => raise
    | some _ => pure ()

/-- engine_refresh, op.c:464-483. -/
def engine_refresh (if_exists : Bool) : M Unit := do
  engine_download if_exists true
  engine_drop if_exists false
  refresh_run if_exists
  engine_upload true true
  let _ ← engine_drop_file if_exists true
  pure ()

/-! ### engine/engine/op.c: rebalance, checkpoint, collecting garbage -/

/-- The loop of engine_rebalance_next, op.c:556-572, over `n` tiers, with
engine_rebalance_tier (:526-542): the mutex has no guard. -/
def tiers : Nat → M Bool
  | 0 => pure false
  | n + 1 => do
    let part ← cond
    if !part then tiers n
    else do
      let last ← cond
      (if last then pure () else fallible .tierName : M Unit)
      let refresh ← cond
      if refresh then tiers n else pure true

/-- engine_rebalance_next, op.c:544-576. -/
def engine_rebalance_next : M Bool := do
  take .shared
  guarded (do
    let empty ← cond
    if empty then pure false
    else do
      take .mutex
      let n ← ask
      let r ← tiers n
      give .mutex
      pure r) control_unlock

/-- engine_rebalance, op.c:578-594. -/
def engine_rebalance : Nat → M Unit
  | 0 => spin
  | n + 1 => do
    let more ← engine_rebalance_next
    if !more then pure ()
    else do
      let drop ← cond
      (if drop then engine_drop true true else engine_refresh true : M Unit)
      engine_rebalance n

/-- The loops of engine_checkpoint (op.c:603-615) and engine_resume (:734-744). -/
def schedule : Nat → M Unit
  | 0 => pure ()
  | n + 1 => do
    let ready ← cond
    (if ready then service_add .request else pure () : M Unit)
    schedule n

/-- engine_checkpoint, op.c:596-616, and engine_resume, :725-745. -/
def engine_checkpoint : M Unit := do
  take .exclusive
  guarded (do
    let n ← ask
    schedule n) control_unlock

/-- engine_gc, op.c:618-652. -/
def engine_gc : M Unit := do
  let wal ← cond
  if !wal then pure ()
  else do
    take .shared
    guarded (do
      take .mutex
      give .mutex
      wal_gc) control_unlock

/-- The actions of a request, op.c:678-712, by number (engine/engine/service_req.h:
19-30). -/
def action (k : Nat) : M Unit := do
  match k with
  | 1 => wal_rotate
  | 2 => engine_gc
  | 3 => do
    let n ← ask
    engine_rebalance n
  | 4 => do
    let _ ← engine_drop_file true true
    pure ()
  | 5 => engine_drop true false
  | 6 => refresh_run true
  | 7 => engine_download true true
  | 8 => engine_upload true true
  | _ => pure ()

/-- The loop of engine_service, op.c:667-714, over the actions left. -/
def actions : Nat → M Unit
  | 0 => pure ()
  | n + 1 => do
    let pass ← cond
    if !pass then service_schedule
    else do
      let k ← ask
      action k
      actions n

/-- engine_service, op.c:654-723: errors are dropped; true on shutdown.  worker_main,
engine/engine/worker.c:23-38, calls it until then. -/
def engine_service : M Bool := do
  let r ← service_next
  match r with
  | none => pure true
  | some false => pure false
  | some true => do
    let n ← ask
    let _ ← attempt (actions n)
    pure false

/-- engine_show, engine_show.c:76-115. -/
def engine_show : M Unit := do
  take .shared
  guarded (do
    take .mutex
    guarded (fallible .other) (give .mutex)) control_unlock

/-! ### engine/engine/write.c -/

/-- engine_rollback, write.c:24-43, from the last record on. -/
def undo : List Op → M Unit
  | [] => modify fun _ => []
  | op :: r => do
    match op.ref with
    | none => undo r
    | some i => do
      -- memtable_unset of NULL, or of a table without pages
      if !op.prev && (!op.event || op.bare) then undefined
      else do
        engine_unlock (.access i)
        undo r

/-- engine_rollback, write.c:24-43: without a buffer, `log_last` is in front of
NULL. -/
def engine_rollback : M Unit := do
  let s ← get
  if !s.logBuf then undefined else undo s.log

/-- engine_commit, write.c:45-72, from the first record on. -/
def commit : List Op → M Unit
  | [] => modify fun _ => []
  | op :: r => do
    match op.ref with
    | none => commit r
    | some i => do
      let ready ← cond
      (if ready then service_add .commitRequest else pure () : M Unit)
      engine_unlock (.access i)
      commit r

/-- engine_commit, write.c:45-72. -/
def engine_commit : M Unit := do
  let s ← get
  commit s.log.reverse

/-- log_init, engine/wal/log.h:33-39. -/
def log_init : M Unit := fun _ s => .ok () { s with log := [], logBuf := false }

/-- log_add, engine/wal/log.h:93-104. -/
def log_add : M Unit := fun w s =>
  if w.fails (if s.logBuf then .record else .firstRecord) s.tick then .throw { s with tick := s.tick + 1 }
  else .ok () { s with tick := s.tick + 1, log := ⟨none, false, false, false⟩ :: s.log, logBuf := true }

/-- The check of the key, write.c:87-89; it comes before log_add, and what happens
depends on the records there are. -/
def check_key : M Unit := fun w s =>
  if w.fails (if s.logBuf then .record else .firstRecord) s.tick then .throw { s with tick := s.tick + 1 }
  else .ok () { s with tick := s.tick + 1 }

/-- Changes the last record. -/
def last (g : Op → Op) : M Unit := modify fun l =>
  match l with
  | [] => []
  | op :: r => g op :: r

/-- event_allocate, engine/io/event.h:80-87, and event_copy, :89-95, with heap_allocate
(runtime/lib/heap.h:56-78): an event larger than a page is written through NULL. -/
def event_allocate : M Unit := do
  let large ← wrong .large
  if large then undefined
  else do
    let full ← cond
    if full then memory_mgr_pop else pure ()

/-- memtable_set, engine/io/memtable.c: the first page of a table, a page that is
split, or neither; `prev` is asked for. -/
def memtable_set : M Unit := do
  let first ← cond
  if first then do
    last fun op => { op with bare := true }
    fallible .firstPage
    last fun op => { op with bare := false }
  else do
    let full ← cond
    if full then fallible .morePage
    else do
      let prev ← cond
      last fun op => { op with prev := prev }

/-- The part of the loops that is the same, write.c:100-108 and 166-175. -/
def store (i : Nat) : M Unit := do
  last fun op => { op with ref := some i }
  event_allocate
  fallible .iov
  last fun op => { op with event := true }
  memtable_set

/-- One turn of the loop of engine_write, write.c:83-109.  engine_lock with `create`
returns a partition or throws. -/
def write_one : M Unit := do
  check_key
  log_add
  let r ← engine_lock .access false true
  match r with
  | none => undefined
  | some i => store i

/-- The log is written, write.c:111-126. -/
def write_wal : M Unit := do
  let wal ← cond
  if wal then do
    fallible .other
    let rotate ← wal_write
    if rotate then service_add .request else pure ()
  else pure ()

/-- engine_write, write.c:74-138. -/
def engine_write (count : Nat) : M Unit := do
  log_init
  let r ← attempt (do
    times count write_one
    write_wal)
  match r with
  | none => do
    engine_rollback
    raise
  | some _ => engine_commit

/-- One turn of the loop of engine_write_replay, write.c:150-176: an event the file
has is skipped (log_pushback, engine/wal/log.h:124-129). -/
def replay_one : M Unit := do
  log_add
  let r ← engine_lock .access false true
  match r with
  | none => undefined
  | some i => do
    let newer ← cond
    if newer then do
      engine_unlock (.access i)
      modify fun l => l.tail
    else store i

/-- engine_write_replay, write.c:140-193. -/
def engine_write_replay (count : Nat) : M Unit := do
  log_init
  let r ← attempt (times count replay_one)
  match r with
  | none => do
    engine_rollback
    raise
  | some _ => engine_commit

/-! ### main/main/main.c -/

/-- The loop of main_replay, main.c:182-206. -/
def replay : Nat → M Unit
  | 0 => spin
  | n + 1 => do
    let k ← ask
    let r ← wal_cursor_next k
    if !r then pure ()
    else do
      let type ← ask
      (match type with
        | 0 => do
          let count ← ask
          engine_write_replay count
        | 1 => engine_drop true true
        | _ => raise : M Unit)
      replay n

/-- main_start, main.c:211-256.  main_deploy, cloud_mgr_open, engine_open take no lock;
worker_mgr_start (engine/engine/worker_mgr.c:31-54) neither. -/
def main_start : M Unit := do
  fallible .other
  fallible .other
  let wal ← cond
  (if wal then do
      wal_open
      wal_cursor_open
      let n ← ask
      replay n
    else pure () : M Unit)
  -- engine_resume
  engine_checkpoint
  fallible .other

/-! ### main/main/execute.c -/

/-- EXECUTE_LOCK_*, main/main/execute.h -/
inductive ExecuteLock where
  | none | shared | exclusive
deriving DecidableEq, Repr

/-- The commands that do different things to locks; the flags are those of the
command. -/
inductive Cmd where
  | show (n : Nat)
  | set
  | debugWalCreate | debugWalGc | debugWalRead | debugMemoryGc
  | checkpoint
  | service
  | rebalance
  /-- CREATE, DROP, ALTER of CLOUD and STORAGE, ALTER PIPELINE -/
  | change
  | partitionCreate
  | partitionDrop (if_exists whole : Bool)
  | partitionDropRange (whole : Bool)
  | partitionMove (if_exists : Bool)
  | partitionMoveRange
  | partitionRefresh (if_exists : Bool)
  | partitionRefreshRange
  | partitionDownload (if_exists if_cloud : Bool)
  | partitionDownloadRange (if_cloud : Bool)
  | partitionUpload (if_exists if_cloud : Bool)
  | partitionUploadRange (if_cloud : Bool)
deriving DecidableEq, Repr

/-- The table `cmds`, execute.c:506-533. -/
def lockOf : Cmd → ExecuteLock
  | .show _ => .shared
  | .set => .exclusive
  | .change => .exclusive
  | _ => .none

/-- execute_show_op, execute.c:26-87. -/
def execute_show_op : M Unit := do
  let type ← ask
  match type with
  | 0 => memory_mgr_show
  | 1 => wal_show
  | 2 => engine_show
  | _ => fallible .other

/-- `engine_refresh` and the like between refresh_init and refresh_free,
execute.c:221-249, 396-468. -/
def withRefresh (x : M Unit) : M Unit := do
  let r ← attempt x
  match r with
  | none => raise
  | some _ => pure ()

/-- The loop of DEBUG_WAL_READ, execute.c:198-206. -/
def debugRead : Nat → M Unit
  | 0 => spin
  | n + 1 => do
    let k ← ask
    let r ← wal_cursor_next k
    if !r then pure ()
    else do
      fallible .other
      debugRead n

/-- The functions of the table, execute.c:89-504. -/
def function : Cmd → M Unit
  | .show n => do
    times n execute_show_op
    fallible .other
  | .set => fallible .other
  | .debugWalCreate => wal_rotate
  | .debugWalGc => engine_gc
  | .debugWalRead => do
    wal_cursor_open
    let n ← ask
    debugRead n
  | .debugMemoryGc => memory_mgr_push
  | .checkpoint => engine_checkpoint
  | .service => withRefresh (do
    let _ ← engine_service
    pure ())
  | .rebalance => withRefresh (do
    let n ← ask
    engine_rebalance n)
  | .change => fallible .other
  | .partitionCreate => engine_fill
  | .partitionDrop if_exists whole => engine_drop if_exists whole
  | .partitionDropRange whole => do
    let n ← ask
    range (engine_drop true whole) n
  | .partitionMove if_exists => withRefresh (engine_refresh if_exists)
  | .partitionMoveRange => withRefresh (do
    let n ← ask
    range (engine_refresh true) n)
  | .partitionRefresh if_exists => withRefresh (engine_refresh if_exists)
  | .partitionRefreshRange => withRefresh (do
    let n ← ask
    range (engine_refresh true) n)
  | .partitionDownload if_exists if_cloud => engine_download if_exists if_cloud
  | .partitionDownloadRange if_cloud => do
    let n ← ask
    range (engine_download true if_cloud) n
  | .partitionUpload if_exists if_cloud => engine_upload if_exists if_cloud
  | .partitionUploadRange if_cloud => do
    let n ← ask
    range (engine_upload true if_cloud) n

/-- main_execute, execute.c:535-590, of a command that was parsed; parsing takes no
lock. -/
def main_execute (c : Cmd) : M Unit := do
  fallible .other
  (match lockOf c with
    | .none => pure ()
    | .shared => take .shared
    | .exclusive => take .exclusive : M Unit)
  let r ← attempt (function c)
  (if lockOf c ≠ .none then control_unlock else pure () : M Unit)
  match r with
  | none => raise
  | some _ => fallible .other

/-! ### main/api/monotone.c -/

/-- What a thread may call: monotone_open, monotone_execute, monotone_write
(monotone.c:122-165), and what a worker does between two requests. -/
inductive Call where
  | open
  | execute (c : Cmd)
  | write (count : Nat)
  | work
deriving DecidableEq, Repr

/-- A call, as the application sees it: whether it failed. -/
def call : Call → M Bool
  | .open => do
    let r ← attempt main_start
    pure r.isSome
  | .execute c => do
    let r ← attempt (main_execute c)
    pure r.isSome
  | .write count => do
    let r ← attempt (engine_write count)
    pure r.isSome
  | .work => engine_service

/-- Calls one after the other. -/
def calls : List Call → M (List Bool)
  | [] => pure []
  | c :: cs => do
    let r ← call c
    let rs ← calls cs
    pure (r :: rs)

/-- A thread that holds nothing. -/
def start : St := ⟨0, [], [], [], false⟩

end Verif.Hold
