import Verif.Model.Basic

/-! Model of engine/engine/service.h, service_req.h and engine_service of
engine/engine/op.c: the queue of background requests and the workers. -/
namespace Verif

/-- `ActionType`, engine/engine/service_req.h:19-30. -/
inductive Action where
  | none | rotate | gc | rebalance | dropOnStorage | dropOnCloud | refresh | download | upload
deriving Repr, DecidableEq

/-- `ServiceFilter`, engine/engine/service.h:18-23. -/
inductive Filter where
  | any | withoutUpload | upload
deriving Repr, DecidableEq

/-- `struct ServiceReq`, service_req.h:37-44.  `tag` is the identity of the
request (its address); the link is the position in `Service.list`. -/
structure SReq where
  tag : Nat
  id : Nat
  current : Nat
  actions : List Action
deriving Repr, DecidableEq

/-- service_req_is_upload, service_req.h:65-69. -/
def SReq.isUpload (r : SReq) : Res Bool :=
  match r.actions[r.current]? with
  | some a => .ok (a == .upload)
  | Option.none => .ub "actions[current] out of bounds"

/-- `struct Service`, service.h:25-33.  The intrusive list is a list, head
first; mutex and condition variable are left out (each function below is one
critical section).  The counters are `int`; overflow at 2^31 queued requests is
not modelled. -/
structure Service where
  list : List SReq
  count : Int
  countUpload : Int
  shutdown : Bool
deriving Repr, DecidableEq

namespace Service

/-- service_init, service.h:35-44. -/
def init : Service := ⟨[], 0, 0, false⟩

/-- service_shutdown, service.h:58-65. -/
def doShutdown (s : Service) : Service := { s with shutdown := true }

/-- service_schedule, service.h:67-78. -/
def schedule (s : Service) (r : SReq) : Res Service :=
  r.isUpload.bind fun up =>
  .ok { s with
    list := s.list ++ [r],
    count := s.count + 1,
    countUpload := if up then s.countUpload + 1 else s.countUpload }

/-- service_add, service.h:80-93: `assert(count > 0)`; the first action decides
the kind of worker.  -/
def add (s : Service) (tag id : Nat) (actions : List Action) : Res Service :=
  if actions = [] then .abort "count > 0" else schedule s ⟨tag, id, 0, actions⟩

/-- The loops of service_fetch, service.h:162-171 and 179-189: unlink the first
request with `is_upload == want`. -/
def unlinkFirst (want : Bool) : List SReq → Res (Option SReq × List SReq)
  | [] => .ok (Option.none, [])
  | r :: rs =>
    r.isUpload.bind fun up =>
    if up = want then .ok (some r, rs)
    else (unlinkFirst want rs).bind fun (f, rs') => .ok (f, r :: rs')

/-- service_fetch, service.h:142-195. -/
def fetch (s : Service) (filter : Filter) : Res (Option SReq × Service) :=
  if s.count = 0 then .ok (Option.none, s)
  else match filter with
    | .any =>
      match s.list with
      | [] => .ub "list_pop of an empty list"
      | r :: rs =>
        r.isUpload.bind fun up =>
        .ok (some r, { s with
          list := rs,
          count := s.count - 1,
          countUpload := if up then s.countUpload - 1 else s.countUpload })
    | .withoutUpload =>
      if s.count - s.countUpload = 0 then .ok (Option.none, s)
      else (unlinkFirst false s.list).bind fun
        | (some r, rs) => .ok (some r, { s with list := rs, count := s.count - 1 })
        | (Option.none, _) => .ok (Option.none, s)
    | .upload =>
      if s.countUpload = 0 then .ok (Option.none, s)
      else (unlinkFirst true s.list).bind fun
        | (some r, rs) => .ok (some r, { s with
            list := rs,
            count := s.count - 1,
            countUpload := s.countUpload - 1 })
        | (Option.none, _) => .ok (Option.none, s)

/-- What one pass of service_next gives, service.h:197-221. -/
inductive Next where
  | shutdown
  | wait            -- cond_var_wait (or NULL if not waiting)
  | got (r : SReq)
deriving Repr, DecidableEq

/-- One pass through the loop of service_next, service.h:205-217. -/
def next (s : Service) (filter : Filter) : Res (Next × Service) :=
  if s.shutdown then .ok (.shutdown, s)
  else (fetch s filter).bind fun
    | (some r, s) => .ok (.got r, s)
    | (Option.none, s) => .ok (.wait, s)

end Service

/-- service_filter, service.h:223-238. -/
def serviceFilter (r : SReq) : Filter → Res Bool
  | .any => .ok true
  | .withoutUpload => r.isUpload.bind fun up => .ok (!up)
  | .upload => r.isUpload

/-- Workers and queue.  `hand w` is the request worker `w` is running (`req` of
engine_service, op.c:657); `log` is what was executed: worker, request,
action. -/
structure Workers where
  service : Service
  hand : Nat → Option SReq
  log : List (Nat × Nat × Action)

/-- What can happen: a request is scheduled, a worker looks for work, a worker
makes one turn of its loop (`ok` = the action did not throw), shutdown. -/
inductive SEvent where
  | add (id : Nat) (actions : List Action)
  | take (w : Nat)
  | turn (w : Nat) (ok : Bool)
  | shutdown
deriving Repr, DecidableEq

namespace Workers

def setHand (s : Workers) (w : Nat) (r : Option SReq) : Nat → Option SReq :=
  fun v => if v = w then r else s.hand v

/-- One turn of the loop of engine_service, op.c:667-720, for the request in
hand: end of the actions (free), wrong kind of worker (reschedule), or execute
the current action.  An action that throws leaves the loop and the request is
freed (op.c:716-720). -/
def turn (s : Workers) (filter : Filter) (w : Nat) (ok : Bool) : Res Workers :=
  match s.hand w with
  | Option.none => .ok s
  | some r =>
    match r.actions[r.current]? with
    | Option.none => .ok { s with hand := s.setHand w Option.none }
    | some a =>
      (serviceFilter r filter).bind fun pass =>
      if !pass then
        (s.service.schedule r).bind fun sv => .ok { s with service := sv, hand := s.setHand w Option.none }
      else if ok then
        .ok { s with
          hand := s.setHand w (some { r with current := r.current + 1 }),
          log := s.log ++ [(w, r.tag, a)] }
      else
        .ok { s with
          hand := s.setHand w Option.none,
          log := s.log ++ [(w, r.tag, a)] }

/-- One step of the system.  `kind w` is the filter worker `w` was started with
(engine/engine/worker_mgr.c:40-51); `fresh` identifies a new request. -/
def step (kind : Nat → Filter) (fresh : Nat) (s : Workers) : SEvent → Res Workers
  | .add id actions => (s.service.add fresh id actions).bind fun sv => .ok { s with service := sv }
  | .take w =>
    match s.hand w with
    | some _ => .ok s
    | Option.none =>
      (s.service.next (kind w)).bind fun
        | (.got r, sv) => .ok { s with service := sv, hand := s.setHand w (some r) }
        | (_, sv) => .ok { s with service := sv }
  | .turn w ok => turn s (kind w) w ok
  | .shutdown => .ok { s with service := s.service.doShutdown }

def init : Workers := ⟨Service.init, fun _ => Option.none, []⟩

end Workers
end Verif
