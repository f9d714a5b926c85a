import Verif.Model.Lockage

/-! C31: partition locks are exclusive. -/
namespace Verif.C31

/-- What a thread does: ask for a lock, run again after sleeping (woken or
spuriously), release a lock. -/
inductive Ev where
  | lock (t p : Nat)
  | wake (t : Nat)
  | unlock (t p : Nat)
deriving Repr, DecidableEq

/-- The locks and, for every thread and lock, how often the thread has taken it
minus how often it has released it. -/
structure St where
  locks : Locks
  depth : Nat → Nat → Nat

def bump (d : Nat → Nat → Nat) (t p : Nat) (f : Nat → Nat) : Nat → Nat → Nat :=
  fun u q => if u = t ∧ q = p then f (d u q) else d u q

/-- One event; `none` if a thread cannot do that now (it sleeps, or releases a
lock it has not taken, or is not one of the `n` threads).  `nested` allows a thread to take a lock again. -/
def step (n : Nat) (nested : Bool) (s : St) : Ev → Option St
  | .lock t p =>
    if s.locks.wait t = none ∧ t < n ∧ (nested = true ∨ s.depth t p = 0) then
      let r := s.locks.lockage_lock t p
      some ⟨r.1, if r.2 then bump s.depth t p (· + 1) else s.depth⟩
    else none
  | .wake t =>
    match s.locks.wait t with
    | none => none
    | some (p, _) =>
      let r := s.locks.wake t
      some ⟨r.1, if r.2 then bump s.depth t p (· + 1) else s.depth⟩
  | .unlock t p =>
    if s.locks.wait t = none ∧ s.depth t p > 0 then
      some ⟨s.locks.lockage_unlock p, bump s.depth t p (· - 1)⟩
    else none

def init : St := ⟨Locks.init, fun _ _ => 0⟩

def run (n : Nat) (nested : Bool) : St → List Ev → Option St
  | s, [] => some s
  | s, e :: es => (step n nested s e).bind fun s => run n nested s es

/-- At most one thread holds a lock; a thread sleeps without having been woken
only while another thread holds the lock it wants. -/
structure Good (s : St) : Prop where
  exclusive : ∀ p t u, s.depth t p > 0 → s.depth u p > 0 → t = u
  awake : ∀ t p, s.locks.wait t = some (p, false) → ∃ u, u ≠ t ∧ s.depth u p > 0

/-- The full property: any number of threads, any schedule. -/
def Full : Prop := ∀ n es s, run n true init es = some s → Good s

end Verif.C31
