import Verif.Model.Lifecycle
import Verif.Spec.C33

/-! C69: closing ends all workers, and ends. -/
namespace Verif.C69
open Life

/-- The events of workers and of the thread that closes. -/
def Own : Event → Bool
  | .wake _ | .look _ | .turn _ _ | .join => true
  | _ => false

/-- Requests have at least one action (service_add asserts it). -/
def Legal (evs : List Event) : Prop := ∀ id actions, .add id actions ∈ evs → actions ≠ []

/-- What is claimed of a reached state. -/
structure Good (e : Env) : Prop where
  /-- Nobody waits while there is something for them to do. -/
  awake : ∀ t ∈ e.threads, t.pc = .wait → e.service.shutdown = false ∧ ∀ r ∈ e.service.list, C33.accepts t.filter r = false
  /-- When the environment is gone, so are all threads. -/
  gone : e.api = .closed → (∀ t ∈ e.threads, t.pc = .joined) ∧ e.workers = none ∧ e.service.list = []
  /-- While closing, there is always somebody who can go on. -/
  goes : ∀ i, e.api = .joining i → ∃ ev e', Own ev = true ∧ step e ev = .ok e'
  /-- Closing comes to an end, whoever goes on. -/
  ends : e.api ≠ .idle → ∃ bound, ∀ evs e', run e evs = .ok e' → (evs.filter Own).length ≤ bound

/-- A history up to the end of the environment: nobody adds a request after it. -/
def InTime (e : Env) : List Event → Prop
  | [] => True
  | ev :: evs => (∀ id as, ev = .add id as → e.api ≠ .closed) ∧ ∀ e', step e ev = .ok e' → InTime e' evs

/-- The full property: no history goes wrong. -/
def Full : Prop := ∀ evs, Legal evs → InTime init evs →
  (∀ m, run init evs ≠ .ub m ∧ run init evs ≠ .abort m) ∧ ∀ e, run init evs = .ok e → Good e

/-- The event starts workers. -/
def starts : Event → Bool
  | .open_ _ _ .early => false
  | .open_ _ _ _ => true
  | _ => false

/-- The workers were started at most once, and all of them. -/
def StartedOnce (evs : List Event) : Prop :=
  (evs.filter starts).length ≤ 1 ∧ ∀ w u o, .open_ w u o ∈ evs → o = .early ∨ o = .done

end Verif.C69
