import Verif.Model.Service

/-! C33: background requests are neither lost nor duplicated. -/
namespace Verif.C33

/-- The requests scheduled by a history, in order: request number i is the i-th. -/
def added : List SEvent → List (List Action)
  | [] => []
  | .add _ as :: es => as :: added es
  | _ :: es => added es

def bump (n : Nat) : SEvent → Nat
  | .add _ _ => n + 1
  | _ => n

/-- Run a history; requests are numbered in the order of scheduling. -/
def runFrom (kind : Nat → Filter) : Nat → Workers → List SEvent → Res Workers
  | _, s, [] => .ok s
  | n, s, e :: es =>
    (Workers.step kind n s e).bind fun s => runFrom kind (bump n e) s es

def run (kind : Nat → Filter) (es : List SEvent) : Res Workers := runFrom kind 0 Workers.init es

/-- The actions executed for request `i`, in order. -/
def executed (s : Workers) (i : Nat) : List Action :=
  (s.log.filter (fun e => e.2.1 == i)).map (fun e => e.2.2)

/-- Request `i` is waiting in the queue or in the hands of a worker. -/
def Pending (s : Workers) (i : Nat) : Prop :=
  (∃ r ∈ s.service.list, r.tag = i) ∨ ∃ w r, s.hand w = some r ∧ r.tag = i

/-- The worker kinds that may run an action. -/
def Allowed : Filter → Action → Prop
  | .any, _ => True
  | .withoutUpload, a => a ≠ .upload
  | .upload, a => a = .upload

/-- What is claimed of a state after a history. -/
structure Good (kind : Nat → Filter) (es : List SEvent) (s : Workers) : Prop where
  /-- nothing runs twice or out of order, nothing that was not scheduled runs -/
  once : ∀ i as, (added es)[i]? = some as → executed s i <+: as
  nothing_else : ∀ i, (added es)[i]? = none → executed s i = []
  /-- a request that is no longer pending was executed completely -/
  complete : ∀ i as, (added es)[i]? = some as → ¬ Pending s i → executed s i = as
  /-- only by the right kind of worker -/
  kinds : ∀ e ∈ s.log, Allowed (kind e.1) e.2.2
  /-- the pending counters match the queue -/
  count : s.service.count = s.service.list.length
  countUpload : s.service.countUpload =
    (s.service.list.filter (fun r => r.actions[r.current]? == some .upload)).length

/-- Requests have at least one action (service_add asserts it; every caller
passes a constant list). -/
def Legal (es : List SEvent) : Prop := ∀ as ∈ added es, as ≠ []

/-- The full property. -/
def Full : Prop := ∀ kind es, Legal es → ∃ s, run kind es = .ok s ∧ Good kind es s

/-- No action throws. -/
def NoFailure (es : List SEvent) : Prop := ∀ e ∈ es, ∀ w, e ≠ .turn w false

/-- Whether a worker of a kind accepts a request. -/
def accepts (f : Filter) (r : SReq) : Bool :=
  match f with
  | .any => true
  | .withoutUpload => r.actions[r.current]? != some .upload
  | .upload => r.actions[r.current]? == some .upload

end Verif.C33
