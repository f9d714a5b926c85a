import Mathlib.NumberTheory.LucasPrimality
import Mathlib.Tactic.NormNum.Prime

/-! The factors of 2^128 - 1 are primes (used by C68). -/
namespace Verif.C68

/-- 3 to the number of the highest `k` of 48 bits of `e`, modulo `q`. -/
def powMod (q e k : Nat) : Nat := k.rec 1 fun i r => (r * r % q) * 3 ^ (e / 2 ^ (47 - i) % 2) % q

theorem powMod_eq (q e : Nat) (hq : 1 < q) : ∀ k, k ≤ 48 → powMod q e k = 3 ^ (e / 2 ^ (48 - k) % 2 ^ k) % q
  | 0, _ => by simp [powMod, Nat.mod_one, Nat.mod_eq_of_lt hq]
  | k + 1, hk => by
    have ih := powMod_eq q e hq k (by omega)
    have : powMod q e (k + 1) = (powMod q e k * powMod q e k % q) * 3 ^ (e / 2 ^ (47 - k) % 2) % q := rfl
    rw [this, ih]
    have h1 : 48 - k = (47 - k) + 1 := by omega
    have h2 : 48 - (k + 1) = 47 - k := by omega
    rw [h1, h2]
    generalize 47 - k = j
    have h3 : e / 2 ^ (j + 1) = e / 2 ^ j / 2 := by rw [Nat.pow_succ, Nat.div_div_eq_div_mul]
    rw [h3]
    generalize e / 2 ^ j = f
    have h4 : f % 2 ^ (k + 1) = 2 * (f / 2 % 2 ^ k) + f % 2 := by
      rw [Nat.pow_succ, Nat.mul_comm, Nat.mod_mul]; omega
    rw [h4, Nat.pow_add, Nat.two_mul, Nat.pow_add, ← Nat.mul_mod, Nat.mod_mul_mod]

theorem powMod_full (q e : Nat) (hq : 1 < q) (he : e < 2 ^ 48) : 3 ^ e % q = powMod q e 48 := by
  rw [powMod_eq q e hq 48 (by omega)]
  simp only [Nat.sub_self, Nat.pow_zero, Nat.div_one]
  rw [Nat.mod_eq_of_lt he]

theorem prime_big : Nat.Prime 67280421310721 := by
  have hp : ∀ k, k < 67280421310721 → (3 : ZMod 67280421310721) ^ k = ((3 ^ k % 67280421310721 : ℕ) : ZMod 67280421310721) := by
    intro k _
    rw [ZMod.natCast_mod]; push_cast; rfl
  have h1 : ∀ n : ℕ, n < 67280421310721 → n ≠ 1 → ((n : ℕ) : ZMod 67280421310721) ≠ 1 := by
    intro n hn hne h
    have : ((n : ℕ) : ZMod 67280421310721) = ((1 : ℕ) : ZMod 67280421310721) := by rw [h]; simp
    rw [ZMod.natCast_eq_natCast_iff'] at this
    rw [Nat.mod_eq_of_lt hn] at this
    exact hne this
  refine lucas_primality _ 3 ?_ ?_
  · rw [hp _ (by norm_num)]
    rw [powMod_full _ _ (by norm_num) (by norm_num), show powMod 67280421310721 (67280421310721 - 1) 48 = 1 by decide +kernel]
    simp
  · intro q hq hd
    have hf : 67280421310721 - 1 = 2 ^ 8 * (5 * (47 * (373 * 2998279))) := by norm_num
    have : q = 2 ∨ q = 5 ∨ q = 47 ∨ q = 373 ∨ q = 2998279 := by
      rw [hf] at hd
      rcases (Nat.Prime.dvd_mul hq).1 hd with hd | hd
      · exact .inl ((Nat.prime_dvd_prime_iff_eq hq (by norm_num)).1 (hq.dvd_of_dvd_pow hd))
      rcases (Nat.Prime.dvd_mul hq).1 hd with hd | hd
      · exact .inr (.inl ((Nat.prime_dvd_prime_iff_eq hq (by norm_num)).1 hd))
      rcases (Nat.Prime.dvd_mul hq).1 hd with hd | hd
      · exact .inr (.inr (.inl ((Nat.prime_dvd_prime_iff_eq hq (by norm_num)).1 hd)))
      rcases (Nat.Prime.dvd_mul hq).1 hd with hd | hd
      · exact .inr (.inr (.inr (.inl ((Nat.prime_dvd_prime_iff_eq hq (by norm_num)).1 hd))))
      · exact .inr (.inr (.inr (.inr ((Nat.prime_dvd_prime_iff_eq hq (by norm_num)).1 hd))))
    rcases this with rfl | rfl | rfl | rfl | rfl <;> rw [hp _ (by norm_num)] <;> refine h1 _ (Nat.mod_lt _ (by norm_num)) ?_ <;>
      rw [powMod_full _ _ (by norm_num) (by norm_num)] <;> decide +kernel

end Verif.C68
