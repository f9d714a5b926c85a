import Verif.Model.Conn

/-! C90: the connections of a cloud. -/

namespace Verif.C90
open Verif.Conn

/-- The request has the handle. -/
def Has (s : St) (r h : Nat) : Prop :=
  s.pc r = .held h ∨ s.pc r = .run h ∨ ∃ ok, s.pc r = .after h ok

/-- No request is under way. -/
def Still (s : St) : Prop := ∀ r, s.pc r = .idle

/-- What threads may do: anything that is possible at their place, but the cloud is
only freed when no request is under way (C40: a cloud that a storage refers to is not
dropped; main_free comes after the workers have ended). -/
inductive Reach : St → Prop
  | init : Reach init
  | step (s e s') : Reach s → s.closed = false → (e = .close → Still s) → step s e = .ok s' →
      Reach s'

/-- A step is defined: it is done, or it is none that can be taken here. -/
def Defined (s : St) (e : Ev) : Prop := (∃ s', step s e = .ok s') ∨ ∃ m, step s e = .err m

/-- A handle serves one request at a time, is not in the cache meanwhile, and is there
as long as it can be used; none is lost and none is left behind. -/
def Full : Prop := ∀ s, Reach s →
  (s.closed = false → ∀ e, (e = .close → Still s) → Defined s e) ∧
  (∀ r r' h, Has s r h → Has s r' h → r = r') ∧
  (∀ r h, Has s r h → h ∈ s.live ∧ h ∉ s.list) ∧
  (∀ h ∈ s.live, h ∈ s.list ∨ ∃ r, Has s r h) ∧
  (∀ h ∈ s.list, h ∈ s.live) ∧
  (s.closed = true → s.live = [])

/-- The request that a step is of. -/
def who : Ev → Option Nat
  | .pop r | .alloc r _ | .begin r | .done r _ | .give r | .drop r => some r
  | .close => none

/-- The same with `n` threads, each of which does one request at a time. -/
inductive ReachBy (n : Nat) : St → Prop
  | init : ReachBy n init
  | step (s e s') : ReachBy n s → s.closed = false → (e = .close → Still s) →
      (∀ r, who e = some r → r < n) → step s e = .ok s' → ReachBy n s'

end Verif.C90
