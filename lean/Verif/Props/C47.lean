import Verif.Proofs.Lex

/-! C47: units. -/
namespace Verif.C47
open Lex

/-- The spec units the code knows, with the code's unit. -/
theorem table_ok : ∀ p ∈ units, p.1 ∉ broken →
    (∃ u, findKeyword (bytes p.1) = some (.unit u) ∧ factor u = p.2) ∧
    (∀ c ∈ bytes p.1, 97 ≤ c ∧ c ≤ 122) ∧ bytes p.1 ≠ [] ∧ (bytes p.1).head? ≠ some 101 ∧ 0 < p.2 := by
  have h : units.all (fun p => broken.contains p.1 ||
      ((match findKeyword (bytes p.1) with | some (.unit u) => factor u == p.2 | _ => false) &&
       (bytes p.1).all (fun c => 97 ≤ c && c ≤ 122) && bytes p.1 != [] &&
       (bytes p.1).head? != some 101 && decide (0 < p.2))) = true := by decide +kernel
  intro p hp hb
  have h1 := List.all_eq_true.1 h p hp
  have h2 : broken.contains p.1 = false := by simpa using hb
  rw [h2, Bool.false_or] at h1
  simp only [Bool.and_eq_true, bne_iff_ne, ne_eq, decide_eq_true_eq] at h1
  obtain ⟨⟨⟨⟨h3, h4⟩, h5⟩, h6⟩, h7⟩ := h1
  refine ⟨?_, ?_, h5, h6, h7⟩
  · split at h3
    · rename_i u hu
      exact ⟨u, hu, by simpa using h3⟩
    · simp at h3
  · intro c hc
    have := List.all_eq_true.1 h4 c hc
    simpa using this

/-- Partial: every unit word except min, month(s) and year(s), in any letter
case, with any white space, for every number whose product fits 64 bits.
Missing: the words the code gets wrong and products beyond 64 bits (both false,
below). -/
theorem C47_units_partial (word : String) (f : Nat) (s : List Nat) (h : (word, f) ∈ units)
    (hb : word ∉ broken) (hs : IsNumber s) (hfit : value s * f < 18446744073709551616) :
    Means word f s := by
  obtain ⟨⟨u, hk, hu⟩, hl, hne, he, hpos⟩ := table_ok _ h hb
  dsimp only at *
  intro blank w rest h1 h2 h3
  rw [if_pos hfit, next_int_unit word u s blank w rest hk hl hne he hs h1 h2 h3, hu]
  have hv : value s < 18446744073709551616 := by
    have : value s * 1 ≤ value s * f := Nat.mul_le_mul_left _ hpos
    omega
  rw [Nat.mod_eq_of_lt hv]
  have hw : wrapU64 ((value s : Int) * f) = value s * f := by
    have : ((value s : Int) * f) = ((value s * f : Nat) : Int) := by simp
    rw [this]; exact wrapU64_id hfit
  rw [hw]

/-- What the code does for every number and every unit word it recognises: the
product modulo 2^64. -/
theorem C47_units_modulo (word : String) (f : Nat) (s blank w rest : List Nat) (h : (word, f) ∈ units)
    (hb : word ∉ broken) (hs : IsNumber s) (h1 : IsBlank blank) (h2 : Spells w word) (h3 : EndsWord rest) :
    next (start (s ++ blank ++ w ++ rest)) =
      .ok (.int (value s * f % 18446744073709551616), start rest) := by
  obtain ⟨⟨u, hk, hu⟩, hl, hne, he, hpos⟩ := table_ok _ h hb
  dsimp only at *
  rw [next_int_unit word u s blank w rest hk hl hne he hs h1 h2 h3, hu]
  congr 3
  have : (((value s % 18446744073709551616 : Nat) : Int) * f) = ((value s % 18446744073709551616 * f : Nat) : Int) := by
    simp
  rw [this]
  have h4 : value s % 18446744073709551616 * f % 18446744073709551616 = value s * f % 18446744073709551616 := by
    rw [Nat.mul_mod, Nat.mod_mod, ← Nat.mul_mod]
  rw [← h4]
  unfold wrapU64
  omega

/-- "min" is not recognised (its table row says size 2; "mi" is). -/
theorem C47_min_not_recognised :
    next (start (bytes "5 min")) = .ok (.int 5, ⟨[], true, [.name (bytes "min")]⟩) ∧
    next (start (bytes "5 mi")) = .ok (.int 300000000, start []) := by decide +kernel

/-- "1 month" is 210 days, "1 year" is 2520 days. -/
theorem C47_month_year_wrong :
    next (start (bytes "1 month")) = .ok (.int (210 * 24 * 3600 * 1000000), start []) ∧
    next (start (bytes "1 year")) = .ok (.int (2520 * 24 * 3600 * 1000000), start []) := by decide +kernel

/-- A product beyond 64 bits wraps: 18446744073709552 kb is read as 384. -/
theorem C47_product_wraps :
    next (start (bytes "18446744073709552 kb")) = .ok (.int 384, start []) := by decide +kernel

theorem C47_units_false : ¬ Full := by
  intro h
  have h1 := h "month" (30 * 24 * 3600 * 1000000) (bytes "1") (by decide +kernel)
    ⟨by decide, by decide⟩ (bytes " ") (bytes "month") [] (by unfold IsBlank; decide) (by unfold Spells; decide +kernel) (by
      intro c r e; simp at e)
  rw [if_pos (by decide)] at h1
  have h2 : next (start (bytes "1" ++ bytes " " ++ bytes "month" ++ [])) =
      .ok (.int (210 * 24 * 3600 * 1000000), start []) := by decide +kernel
  rw [h2] at h1
  have h3 := (Prod.mk.inj (Res.ok.inj h1)).1
  have h4 := Token.int.inj h3
  revert h4; decide +kernel

/-- Instances of the partial theorem's hypotheses. -/
example : next (start (bytes "15 MiB,")) = .ok (.int 15728640, start (bytes ",")) := by decide +kernel
example : Means "hours" (3600 * 1000000) (bytes "12") :=
  C47_units_partial _ _ _ (by decide +kernel) (by decide) ⟨by decide, by decide⟩ (by decide +kernel)

end Verif.C47
