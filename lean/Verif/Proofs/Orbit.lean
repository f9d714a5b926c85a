import Verif.Proofs.Period
import Verif.Proofs.Primes
import Mathlib.Dynamics.PeriodicPts.Lemmas
import Mathlib.Data.Finset.Card
import Mathlib.Order.Interval.Finset.Nat

/-! The generator runs through all its states but zero (used by C68). -/
namespace Verif.C68

theorem it_iterate (v : Nat) : ∀ k, it k v = T^[k] v
  | 0 => rfl
  | k + 1 => by rw [Function.iterate_succ_apply', ← it_iterate v k]; rfl

theorem N_factors : N = 3 * (5 * (17 * (257 * (641 * (65537 * (274177 * (6700417 * 67280421310721))))))) := by norm_num

theorem prime_factor {p : Nat} (hp : p.Prime) (hd : p ∣ N) :
    p = 3 ∨ p = 5 ∨ p = 17 ∨ p = 257 ∨ p = 641 ∨ p = 65537 ∨ p = 274177 ∨ p = 6700417 ∨ p = 67280421310721 := by
  have key : ∀ {a b : Nat}, a.Prime → p ∣ a * b → p = a ∨ p ∣ b := by
    intro a b ha h
    rcases (Nat.Prime.dvd_mul hp).1 h with h | h
    · exact .inl ((Nat.prime_dvd_prime_iff_eq hp ha).1 h)
    · exact .inr h
  rw [N_factors] at hd
  rcases key (by norm_num) hd with h | hd
  · exact .inl h
  refine .inr ?_
  rcases key (by norm_num) hd with h | hd
  · exact .inl h
  refine .inr ?_
  rcases key (by norm_num) hd with h | hd
  · exact .inl h
  refine .inr ?_
  rcases key (by norm_num) hd with h | hd
  · exact .inl h
  refine .inr ?_
  rcases key (by norm_num) hd with h | hd
  · exact .inl h
  refine .inr ?_
  rcases key (by norm_num) hd with h | hd
  · exact .inl h
  refine .inr ?_
  rcases key (by norm_num) hd with h | hd
  · exact .inl h
  refine .inr ?_
  rcases key (by norm_num) hd with h | hd
  · exact .inl h
  exact .inr ((Nat.prime_dvd_prime_iff_eq hp prime_big).1 hd)

theorem back_zero {p v : Nat} (hp : p.Prime) (hd : p ∣ N) (hv : v < 2 ^ 128) (hb : it (N / p) v = v) : v = 0 := by
  rcases prime_factor hp hd with h | h | h | h | h | h | h | h | h <;> subst h
  · exact not_back (by decide) inv_3 hv hb
  · exact not_back (by decide) inv_5 hv hb
  · exact not_back (by decide) inv_17 hv hb
  · exact not_back (by decide) inv_257 hv hb
  · exact not_back (by decide) inv_641 hv hb
  · exact not_back (by decide) inv_65537 hv hb
  · exact not_back (by decide) inv_274177 hv hb
  · exact not_back (by decide) inv_6700417 hv hb
  · exact not_back (by decide) inv_big hv hb

theorem period {v : Nat} (h0 : v ≠ 0) (hv : v < 2 ^ 128) : Function.minimalPeriod T v = N := by
  have hN : Function.IsPeriodicPt T N v := by
    show T^[N] v = v
    rw [← it_iterate]; exact it_N hv
  obtain ⟨q, hq⟩ := hN.minimalPeriod_dvd
  have hd0 : 0 < Function.minimalPeriod T v := by
    rcases Nat.eq_zero_or_pos (Function.minimalPeriod T v) with h | h
    · rw [h, Nat.zero_mul] at hq; exact absurd hq (by decide)
    · exact h
  by_cases h1 : q = 1
  · rw [h1, Nat.mul_one] at hq; exact hq.symm
  · exfalso
    obtain ⟨p, hp, hpd⟩ := Nat.exists_prime_and_dvd h1
    obtain ⟨c, hc⟩ := hpd
    have hpN : p ∣ N := ⟨Function.minimalPeriod T v * c, by rw [hq, hc]; ring⟩
    have hdiv : N / p = Function.minimalPeriod T v * c :=
      Nat.div_eq_of_eq_mul_left hp.pos (by rw [hq, hc]; ring)
    refine h0 (back_zero hp hpN hv ?_)
    rw [it_iterate, hdiv]
    exact (Function.isPeriodicPt_minimalPeriod T v).mul_const c

theorem it_ne_zero {v : Nat} (h0 : v ≠ 0) (hv : v < 2 ^ 128) (k : Nat) : it k v ≠ 0 := by
  intro h
  have h1 : it (k + (N * (k + 1) - k)) v = 0 := by rw [it_add, h, it_zero]
  have h2 : k + (N * (k + 1) - k) = N * (k + 1) := by
    have : k ≤ N * (k + 1) := by unfold N; omega
    omega
  have hN : Function.IsPeriodicPt T N v := by
    show T^[N] v = v
    rw [← it_iterate]; exact it_N hv
  rw [h2, it_iterate] at h1
  exact h0 ((hN.mul_const (k + 1)).symm.trans h1)

theorem it_eq_iff {v : Nat} (h0 : v ≠ 0) (hv : v < 2 ^ 128) (i j : Nat) : it i v = it j v ↔ i % N = j % N := by
  have hm := period h0 hv
  rw [it_iterate, it_iterate, ← Function.iterate_mod_minimalPeriod_eq (f := T) (x := v) (n := i),
    ← Function.iterate_mod_minimalPeriod_eq (f := T) (x := v) (n := j), hm]
  have hi : i % N < N := Nat.mod_lt _ (by decide)
  have hj : j % N < N := Nat.mod_lt _ (by decide)
  exact Function.iterate_eq_iterate_iff_of_lt_minimalPeriod (by rw [hm]; exact hi) (by rw [hm]; exact hj)

theorem reach {s t : Nat} (hs0 : s ≠ 0) (hs : s < 2 ^ 128) (ht0 : t ≠ 0) (ht : t < 2 ^ 128) : ∃ k, k < N ∧ it k s = t := by
  have hsub : (Finset.range N).image (fun k => it k s) ⊆ Finset.Ioo 0 (2 ^ 128) := by
    intro x hx
    obtain ⟨k, _, rfl⟩ := Finset.mem_image.1 hx
    exact Finset.mem_Ioo.2 ⟨Nat.pos_of_ne_zero (it_ne_zero hs0 hs k), it_lt hs k⟩
  have hcard : ((Finset.range N).image (fun k => it k s)).card = N := by
    rw [Finset.card_image_of_injOn, Finset.card_range]
    intro i hi j hj h
    have hi := Finset.mem_range.1 (Finset.mem_coe.1 hi)
    have hj := Finset.mem_range.1 (Finset.mem_coe.1 hj)
    have h := (it_eq_iff hs0 hs i j).1 h
    rwa [Nat.mod_eq_of_lt hi, Nat.mod_eq_of_lt hj] at h
  have he := Finset.eq_of_subset_of_card_le hsub (by rw [hcard, Nat.card_Ioo]; decide)
  have : t ∈ (Finset.range N).image (fun k => it k s) := by
    rw [he]; exact Finset.mem_Ioo.2 ⟨Nat.pos_of_ne_zero ht0, ht⟩
  obtain ⟨k, hk, h⟩ := Finset.mem_image.1 this
  exact ⟨k, Finset.mem_range.1 hk, h⟩

end Verif.C68
