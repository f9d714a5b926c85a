import Verif.Proofs.Xorshift

/-! Numbers about the generator (used by C68). -/
namespace Verif.C68

/-- The same as `evK`, in the form in which it is computed. -/
def evC (a v k : Nat) : Nat × Nat := k.rec (0, v) fun i r => (r.1 ^^^ (((a >>> i) % 2) * r.2), T r.2)

theorem evC_eq (a v : Nat) : ∀ k, evC a v k = (evK k a v, it k v)
  | 0 => rfl
  | k + 1 => by
    show ((evC a v k).1 ^^^ (((a >>> k) % 2) * (evC a v k).2), T (evC a v k).2) = _
    rw [evC_eq a v k]
    rfl

/-- The generator's polynomial, at each single bit. -/
def rootAt (k : Nat) : Bool := k.rec true fun i r => Bool.and (Nat.beq (evC P (2 ^ i) 129).1 0) r

theorem rootAt_128 : rootAt 128 = true := by decide +kernel

theorem root_bit : ∀ k, rootAt k = true → ∀ i, i < k → evK 129 P (2 ^ i) = 0
  | 0, _, _, h => by omega
  | k + 1, h, i, hi => by
    have h' : (Nat.beq (evC P (2 ^ k) 129).1 0 && rootAt k) = true := h
    rw [Bool.and_eq_true] at h'
    by_cases he : i = k
    · subst he
      have := Nat.eq_of_beq_eq_true h'.1
      rw [evC_eq] at this
      exact this
    · exact root_bit k h'.2 i (by omega)

theorem root : ∀ v, v < 2 ^ 128 → evK 129 P v = 0 := by
  have hb := root_bit 128 rootAt_128
  have : ∀ n, n ≤ 128 → ∀ v, v < 2 ^ n → evK 129 P v = 0 := by
    intro n
    induction n with
    | zero => intro _ v hv; have : v = 0 := by simpa using hv
              subst this; exact evK_vzero P 129
    | succ n ih =>
      intro hn v hv
      by_cases hlt : v < 2 ^ n
      · exact ih (by omega) v hlt
      · have e : v = (v - 2 ^ n) ^^^ 2 ^ n := by
          refine Nat.eq_of_testBit_eq fun i => ?_
          rw [Nat.testBit_xor, Nat.testBit_two_pow]
          have hv2 : v = 2 ^ n + (v - 2 ^ n) := by omega
          have hlt2 : v - 2 ^ n < 2 ^ n := by rw [Nat.pow_succ] at hv; omega
          by_cases hi : n = i
          · subst hi
            rw [Nat.testBit_lt_two_pow hlt2]
            conv => lhs; rw [hv2]
            rw [Nat.testBit_two_pow_add_eq, Nat.testBit_lt_two_pow hlt2]
            simp
          · conv => lhs; rw [hv2]
            by_cases hi' : i < n
            · rw [Nat.testBit_two_pow_add_gt hi']; simp [hi]
            · have h1 : 2 ^ n + (v - 2 ^ n) < 2 ^ i := by
                rw [← hv2]
                exact Nat.lt_of_lt_of_le hv (Nat.pow_le_pow_right (by decide) (by omega))
              have h2 : v - 2 ^ n < 2 ^ i := by omega
              rw [Nat.testBit_lt_two_pow h1, Nat.testBit_lt_two_pow h2]; simp [hi]
        rw [e, evK_vec, hb n (by omega), ih (by omega) _ (by rw [Nat.pow_succ] at hv; omega)]
        rfl
  exact this 128 (by omega)

/-- The number of states but zero. -/
abbrev N : Nat := 340282366920938463463374607431768211455

theorem pow_N : pow N = 1 := by decide +kernel

theorem inv_3 : mul 241453233029460021203426471162042953619 (pow (N / 3) ^^^ 1) = 1 := by decide +kernel
theorem inv_5 : mul 130784733295281475895497296924878226039 (pow (N / 5) ^^^ 1) = 1 := by decide +kernel
theorem inv_17 : mul 131995454731790851923070603403251172034 (pow (N / 17) ^^^ 1) = 1 := by decide +kernel
theorem inv_257 : mul 250427995623285817458762783256093402322 (pow (N / 257) ^^^ 1) = 1 := by decide +kernel
theorem inv_641 : mul 153232802646500198348106848486896838772 (pow (N / 641) ^^^ 1) = 1 := by decide +kernel
theorem inv_65537 : mul 38061147069789156561083027911905930588 (pow (N / 65537) ^^^ 1) = 1 := by decide +kernel
theorem inv_274177 : mul 264204369592870642996498686258873536819 (pow (N / 274177) ^^^ 1) = 1 := by decide +kernel
theorem inv_6700417 : mul 231852902709860832232127464142718596249 (pow (N / 6700417) ^^^ 1) = 1 := by decide +kernel
theorem inv_big : mul 254901961205142181107392018616309761778 (pow (N / 67280421310721) ^^^ 1) = 1 := by decide +kernel

theorem ev_one (v : Nat) : ev 1 v = v := evK_one v 127

theorem it_N {v : Nat} (hv : v < 2 ^ 128) : it N v = v := by
  rw [← ev_pow root (by decide) hv, pow_N, ev_one]

/-- No vector but zero comes back after `e` steps. -/
theorem not_back {c e v : Nat} (he : e < 2 ^ 128) (h : mul c (pow e ^^^ 1) = 1) (hv : v < 2 ^ 128) (hb : it e v = v) : v = 0 := by
  have hlt : pow e ^^^ 1 < 2 ^ 128 := Nat.xor_lt_two_pow (powAt_lt e 128) (by decide)
  have h1 : ev (pow e ^^^ 1) v = 0 := by
    rw [ev_xor, ev_pow root he hv, ev_one, hb, Nat.xor_self]
  have h2 := ev_mul (a := c) hlt (root v hv)
  rw [h, ev_one, h1] at h2
  rw [h2]
  exact evK_vzero c 128

end Verif.C68
