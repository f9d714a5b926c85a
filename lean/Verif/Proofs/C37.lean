import Verif.Spec.C37

/-! Lemmas for C37. -/
namespace Verif.C37
open Config

theorem is_testBit (v : Var) (i : Nat) : v.is (2 ^ i) = v.flags.testBit i := by
  unfold Var.is
  have e : (v.flags &&& 2 ^ i).testBit i = v.flags.testBit i := by simp [Nat.testBit_and, Nat.testBit_two_pow]
  cases h : v.flags.testBit i with
  | true =>
    refine decide_eq_true (Nat.pos_of_ne_zero fun h0 => ?_)
    rw [h0, Nat.zero_testBit, h] at e
    cases e
  | false =>
    have : v.flags &&& 2 ^ i = 0 := by
      refine Nat.eq_of_testBit_eq fun j => ?_
      rw [Nat.testBit_and, Nat.testBit_two_pow, Nat.zero_testBit]
      by_cases hj : i = j
      · subst hj; simp [h]
      · simp [hj]
    simp [this]

theorem find_named (cfg : List Var) (name : Bytes) : find cfg name = named cfg name := by
  unfold named
  induction cfg with
  | nil => rfl
  | cons v l ih =>
    rw [find, List.find?_cons]
    by_cases h : v.name = name
    · simp [h]
    · have hb : (v.name == name) = false := by simpa using h
      rw [if_neg h, hb, ih]

theorem update_changed {cfg : List Var} {name : Bytes} {v w : Var} (h : find cfg name = some v) :
    Changed cfg (update cfg name w) name w := by
  induction cfg with
  | nil => simp [find] at h
  | cons a l ih =>
    simp only [find] at h
    simp only [update]
    by_cases ha : a.name = name
    · rw [if_pos ha] at h ⊢
      exact ⟨[], a, l, rfl, rfl, ha, by simp⟩
    · rw [if_neg ha] at h ⊢
      obtain ⟨p, u, r, h1, h2, h3, h4⟩ := ih h
      refine ⟨a :: p, u, r, by rw [h1]; rfl, by rw [h2]; rfl, h3, ?_⟩
      intro x hx
      rcases List.mem_cons.1 hx with rfl | hx
      · exact ha
      · exact h4 x hx

end Verif.C37
