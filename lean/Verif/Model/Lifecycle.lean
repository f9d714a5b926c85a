import Verif.Model.Service

/-! Model of the workers' life: engine/engine/worker.c, worker_mgr.c, the end of
main_start and main_stop of main/main/main.c, with threads and interleavings. -/
namespace Verif
namespace Life

/-- Where a worker's thread is, worker_main, worker.c:24-39. -/
inductive Pc where
  | look              -- about to enter service_next
  | wait              -- in cond_var_wait, service.h:216
  | work (r : SReq)   -- in the loop of engine_service, op.c:667-714
  | ended             -- returned from worker_main
  | joined            -- pthread_join returned
deriving Repr, DecidableEq

/-- A thread that was created. -/
structure Thread where
  filter : Filter
  pc : Pc
deriving Repr, DecidableEq

/-- `struct Worker`, worker.h:18-25.  `thread` is `none` while `thread.id` is 0,
as thread_init leaves it (runtime/runtime/thread.h:27-33). -/
structure Worker where
  filter : Filter
  thread : Option Nat
deriving Repr, DecidableEq

/-- Where the thread is that calls monotone_free. -/
inductive Api where
  | idle
  | joining (i : Nat)   -- worker_mgr_stop, at the worker `i`
  | closed              -- main_free done
deriving Repr, DecidableEq

/-- The environment as far as workers are concerned.  `threads` are all that were
ever created, by number.  `workers` is the array (`none`: NULL) and `count` the
number in `struct WorkerMgr`, worker_mgr.h:18-22. -/
structure Env where
  service : Service
  threads : List Thread
  workers : Option (List Worker)
  count : Nat
  api : Api
  fresh : Nat
deriving Repr, DecidableEq

/-- main_init with service_init and worker_mgr_init, main.c:83,92,
worker_mgr.c:24-29. -/
def init : Env := ⟨Service.init, [], none, 0, .idle, 0⟩

/-- How far monotone_open gets. -/
inductive Open where
  | early             -- fails before worker_mgr_start
  | malloc            -- mn_malloc of the array fails
  | thread (k : Nat)  -- thread_create fails for the worker `k`
  | done
deriving Repr, DecidableEq

/-- The loops with worker_init, worker_mgr.c:40-51. -/
def filters (workers upload : Nat) : List Filter :=
  if upload = 0 then List.replicate workers .any
  else List.replicate workers .withoutUpload ++ List.replicate upload .upload

/-- The loop with worker_start, worker_mgr.c:52-53 and worker.c:57-65: start the
workers from number `i` on; `stop` is the one that fails, if any. -/
def start_loop (stop : Option Nat) : Nat → List Thread → List Filter → List Thread × List Worker
  | _, ts, [] => (ts, [])
  | i, ts, f :: fs =>
    if stop = some i then (ts, (f :: fs).map (⟨·, none⟩))
    else
      let (ts', ws) := start_loop stop (i + 1) (ts ++ [⟨f, .look⟩]) fs
      (ts', ⟨f, some ts.length⟩ :: ws)

/-- The end of main_start, main.c:251-255, with worker_mgr_start,
worker_mgr.c:31-54: `workers` and `upload` are the settings (negative ones are left
out).  If mn_malloc throws the new count is stored already, and the pointer is what
it was. -/
def open_ (e : Env) (workers upload : Nat) : Open → Env
  | .early => e
  | .malloc => { e with count := workers + upload }
  | .thread k =>
    let (ts, ws) := start_loop (some k) 0 e.threads (filters workers upload)
    { e with count := workers + upload, threads := ts, workers := some ws }
  | .done =>
    let (ts, ws) := start_loop none 0 e.threads (filters workers upload)
    { e with count := workers + upload, threads := ts, workers := some ws }

/-- cond_var_broadcast: all that wait go on. -/
def wakeAll (ts : List Thread) : List Thread :=
  ts.map fun t => if t.pc = .wait then { t with pc := .look } else t

/-- What can happen. -/
inductive Event where
  | open_ (workers upload : Nat) (o : Open)   -- monotone_open
  | add (id : Nat) (actions : List Action)    -- service_add, by anybody
  | wake (t : Nat)                            -- cond_var_wait returns for no reason
  | look (t : Nat)                            -- service_next
  | turn (t : Nat) (ok : Bool)                -- a turn of the loop of engine_service
  | close                                     -- monotone_free: service_shutdown
  | join                                      -- monotone_free: a turn of worker_mgr_stop
deriving Repr, DecidableEq

/-- An event that is not possible now. -/
def notNow : Res Env := .err "not now"

/-- The environment's memory is gone after main_free. -/
def gone : Res Env := .ub "use after free"

def setPc (e : Env) (t : Nat) (f : Filter) (pc : Pc) : Env := { e with threads := e.threads.set t ⟨f, pc⟩ }

/-- service_next as a worker calls it, service.h:197-221 and op.c:657-660; from
shutdown on worker_main returns, worker.c:31-38. -/
def look (e : Env) (t : Nat) (th : Thread) : Res Env :=
  (e.service.next th.filter).bind fun
    | (.shutdown, sv) => .ok (setPc { e with service := sv } t th.filter .ended)
    | (.wait, sv) => .ok (setPc { e with service := sv } t th.filter .wait)
    | (.got r, sv) => .ok (setPc { e with service := sv } t th.filter (.work r))

/-- One turn of the loop of engine_service, op.c:667-720: end of the actions,
reschedule for another kind of worker (which wakes the others, service.h:76), or
execute the current action; `ok` tells if it did not throw. -/
def turn (e : Env) (t : Nat) (th : Thread) (r : SReq) (ok : Bool) : Res Env :=
  match r.actions[r.current]? with
  | none => .ok (setPc e t th.filter .look)
  | some _ =>
    (serviceFilter r th.filter).bind fun pass =>
    if !pass then
      (e.service.schedule r).bind fun sv =>
      .ok (setPc { e with service := sv, threads := wakeAll e.threads } t th.filter .look)
    else if ok then .ok (setPc e t th.filter (.work { r with current := r.current + 1 }))
    else .ok (setPc e t th.filter .look)

/-- A turn of the loop of worker_mgr_stop, worker_mgr.c:56-67 and worker.c:67-71,
with the rest of main_stop and main_free after the last (main.c:264-270, 95-108;
service_free, service.h:46-56).  pthread_join returns when the thread has ended;
it may be called once for a thread that was created. -/
def join (e : Env) (i : Nat) : Res Env :=
  if i < e.count then
    match e.workers with
    | none => .ub "workers is NULL"
    | some ws =>
      match ws[i]? with
      | none => .ub "past the end of the workers"
      | some w =>
        match w.thread with
        | none => .ub "pthread_join of a thread that was not created"
        | some t =>
          match e.threads[t]? with
          | none => .ub "pthread_join of a thread that was not created"
          | some th =>
            match th.pc with
            | .ended => .ok { setPc e t th.filter .joined with api := .joining (i + 1) }
            | .joined => .ub "pthread_join of a thread that was joined"
            | _ => notNow
  else .ok { e with workers := none, count := 0, api := .closed, service := { e.service with list := [], count := 0, countUpload := 0 } }

/-- One step. -/
def step (e : Env) : Event → Res Env
  | .open_ w u o => if e.api = .idle then .ok (open_ e w u o) else notNow
  | .add id actions =>
    if e.api = .closed then gone
    else (e.service.add e.fresh id actions).bind fun sv =>
      .ok { e with service := sv, threads := wakeAll e.threads, fresh := e.fresh + 1 }
  | .wake t =>
    match e.threads[t]? with
    | some th => if th.pc = .wait then if e.api = .closed then gone else .ok (setPc e t th.filter .look) else notNow
    | none => notNow
  | .look t =>
    match e.threads[t]? with
    | some th => if th.pc = .look then if e.api = .closed then gone else look e t th else notNow
    | none => notNow
  | .turn t ok =>
    match e.threads[t]? with
    | some th =>
      match th.pc with
      | .work r => if e.api = .closed then gone else turn e t th r ok
      | _ => notNow
    | none => notNow
  | .close =>
    if e.api = .idle then
      .ok { e with service := e.service.doShutdown, threads := wakeAll e.threads, api := .joining 0 }
    else notNow
  | .join =>
    match e.api with
    | .joining i => join e i
    | _ => notNow

/-- A history. -/
def run (e : Env) : List Event → Res Env
  | [] => .ok e
  | ev :: evs => (step e ev).bind fun e => run e evs

end Life
end Verif
