import Verif.Model.Lockage

/-! C32: writers cannot deadlock each other. -/
namespace Verif.C32

/-- Writers over the partition locks: writer `w` has taken the locks of the first
`taken w` events of its batch and released those of the first `freed w`. -/
structure St where
  locks : Locks
  taken : Nat → Nat
  freed : Nat → Nat

def inc (f : Nat → Nat) (w : Nat) : Nat → Nat := fun v => if v = w then f v + 1 else f v

/-- One step of writer `w` whose events go to the partitions `batch w`: as
engine_write, engine/engine/write.c:83-109, it takes the lock of the partition
of each event in turn, and as engine_commit, write.c:48-69, it releases them in
the same order.  A sleeping writer runs only when woken, or `spurious`ly. -/
def step (batch : Nat → List Nat) (s : St) (w : Nat) (spurious : Bool) : St :=
  match s.locks.wait w with
  | some (_, woken) =>
    if woken || spurious then
      let r := s.locks.wake w
      { s with locks := r.1, taken := if r.2 then inc s.taken w else s.taken }
    else s
  | none =>
    match (batch w)[s.taken w]? with
    | some p =>
      let r := s.locks.lockage_lock w p
      { s with locks := r.1, taken := if r.2 then inc s.taken w else s.taken }
    | none =>
      match (batch w)[s.freed w]? with
      | some p => { s with locks := s.locks.lockage_unlock p, freed := inc s.freed w }
      | none => s

def init : St := ⟨Locks.init, fun _ => 0, fun _ => 0⟩

/-- A schedule: which of the `n` writers runs, and whether the wake-up is
spurious. -/
def run (n : Nat) (batch : Nat → List Nat) : St → List (Nat × Bool) → St
  | s, [] => s
  | s, (w, b) :: sched => run n batch (if w < n then step batch s w b else s) sched

def AllDone (n : Nat) (batch : Nat → List Nat) (s : St) : Prop :=
  ∀ w, w < n → s.freed w = (batch w).length

/-- Whatever has happened so far, the writers can still finish, without spurious
wake-ups. -/
def NoDeadlock (n : Nat) (batch : Nat → List Nat) : Prop :=
  ∀ sched, ∃ more, (∀ e ∈ more, e.2 = false) ∧
    AllDone n batch (run n batch (run n batch init sched) more)

/-- The full property: any number of writers, any batches. -/
def Full : Prop := ∀ n batch, NoDeadlock n batch

/-- Every batch visits the partitions in ascending order. -/
def Ordered (n : Nat) (batch : Nat → List Nat) : Prop :=
  ∀ w, w < n → (batch w).Pairwise (· ≤ ·)

end Verif.C32
