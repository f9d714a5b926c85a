import Verif.Proofs.C32

/-! C32: writers cannot deadlock each other. -/
namespace Verif.C32
open Locks

/-- Partial: any number of writers whose batches visit partitions in ascending
order (repeated partitions allowed), under any schedule.  Missing: batches in
other orders, for which the claim is false (below), and threads that hold an
open cursor while writing. -/
theorem C32_writers_partial (n : Nat) (batch : Nat → List Nat) (h : Ordered n batch) : NoDeadlock n batch := by
  intro sched
  exact finish h _ _ (inv_run sched init (inv_init n batch)) (Nat.le_refl _)

/-- In particular batches that each stay within one partition never deadlock. -/
theorem C32_single_partition (n : Nat) (part len : Nat → Nat) :
    NoDeadlock n (fun w => List.replicate (len w) (part w)) :=
  C32_writers_partial n _ (fun w _ => by
    rw [List.pairwise_replicate]; exact .inr (Nat.le_refl _))

/-- Two writers, batches [1,2] and [2,1]. -/
def crossed (w : Nat) : List Nat := if w = 0 then [1, 2] else [2, 1]

/-- The state after each writer took its first lock and asks for its second. -/
def stuck : St := run 2 crossed init [(0, false), (1, false), (0, false), (1, false)]

theorem stuck_forever (more : List (Nat × Bool)) (h : ∀ e ∈ more, e.2 = false) : run 2 crossed stuck more = stuck := by
  induction more with
  | nil => rfl
  | cons e more ih =>
    obtain ⟨w, b⟩ := e
    have hb : b = false := h (w, b) (by simp)
    subst hb
    rw [run]
    have : (if w < 2 then step crossed stuck w false else stuck) = stuck := by
      split
      · rename_i hw
        have hw' : w = 0 ∨ w = 1 := by omega
        rcases hw' with rfl | rfl <;> rfl
      · rfl
    rw [this]
    exact ih (fun e he => h e (by simp [he]))

theorem C32_writers_false : ¬ Full := by
  intro h
  obtain ⟨more, h1, h2⟩ := h 2 crossed [(0, false), (1, false), (0, false), (1, false)]
  have h3 := h2 0 (by omega)
  have h4 : run 2 crossed stuck more = stuck := stuck_forever more h1
  unfold stuck at h4
  rw [h4] at h3
  revert h3; decide

/-- Three writers that meet the hypotheses, one of them waiting for another. -/
example : Ordered 3 (fun w => if w = 0 then [1, 2, 2, 5] else if w = 1 then [2, 5] else [1]) := by
  intro w hw
  have : w = 0 ∨ w = 1 ∨ w = 2 := by omega
  rcases this with rfl | rfl | rfl <;> decide
example : (run 2 (fun w => if w = 0 then [1, 2] else [2, 5]) init [(1, false), (0, false), (0, false)]).locks.wait 0 =
    some (2, false) := rfl

end Verif.C32
