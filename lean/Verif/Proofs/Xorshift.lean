import Verif.Model.Random

/-! The linear algebra of the generator (used by C68): its steps as a linear map on
128 bits, polynomials in it, and the powers of it, which are computed modulo the
polynomial that it is a root of. -/
namespace Verif.C68

theorem xor4 (a b c d : Nat) : (a ^^^ b) ^^^ (c ^^^ d) = (a ^^^ c) ^^^ (b ^^^ d) := by
  rw [Nat.xor_assoc, Nat.xor_assoc, ← Nat.xor_assoc b, Nat.xor_comm b c, Nat.xor_assoc c]

/-- The step of the generator on 128 bits. -/
def T (v : Nat) : Nat :=
  let a := v % 2 ^ 64
  let b := v >>> 64
  let a := a ^^^ ((a <<< 23) % 2 ^ 64)
  b ^^^ ((a ^^^ b ^^^ (a >>> 17) ^^^ (b >>> 26)) <<< 64)

theorem T_xor (x y : Nat) : T (x ^^^ y) = T x ^^^ T y := by
  have e : ∀ v, T v = (v >>> 64) ^^^ ((((v % 2 ^ 64) ^^^ (((v % 2 ^ 64) <<< 23) % 2 ^ 64)) ^^^ (v >>> 64) ^^^
      (((v % 2 ^ 64) ^^^ (((v % 2 ^ 64) <<< 23) % 2 ^ 64)) >>> 17) ^^^ ((v >>> 64) >>> 26)) <<< 64) := fun v => rfl
  rw [e, e, e]
  have h1 : (x ^^^ y) % 2 ^ 64 = (x % 2 ^ 64) ^^^ (y % 2 ^ 64) := Nat.xor_mod_two_pow
  have h2 : ((x % 2 ^ 64) ^^^ (y % 2 ^ 64)) <<< 23 % 2 ^ 64 = ((x % 2 ^ 64) <<< 23 % 2 ^ 64) ^^^ ((y % 2 ^ 64) <<< 23 % 2 ^ 64) := by
    rw [Nat.shiftLeft_xor_distrib, Nat.xor_mod_two_pow]
  have h3 : (x ^^^ y) >>> 64 = (x >>> 64) ^^^ (y >>> 64) := Nat.shiftRight_xor_distrib ..
  rw [h1, h2, h3]
  generalize x % 2 ^ 64 = a1
  generalize y % 2 ^ 64 = a2
  generalize x >>> 64 = b1
  generalize y >>> 64 = b2
  generalize a1 <<< 23 % 2 ^ 64 = c1
  generalize a2 <<< 23 % 2 ^ 64 = c2
  rw [xor4 a1 a2 c1 c2]
  generalize a1 ^^^ c1 = d1
  generalize a2 ^^^ c2 = d2
  rw [Nat.shiftRight_xor_distrib, Nat.shiftRight_xor_distrib, xor4 d1 d2 b1 b2, xor4 (d1 ^^^ b1), xor4 (d1 ^^^ b1 ^^^ d1 >>> 17),
    Nat.shiftLeft_xor_distrib, xor4]

theorem T_zero : T 0 = 0 := by decide

theorem T_lt {v : Nat} (h : v < 2 ^ 128) : T v < 2 ^ 128 := by
  unfold T
  dsimp only
  have hb : v >>> 64 < 2 ^ 64 := by rw [Nat.shiftRight_eq_div_pow]; omega
  have ha : v % 2 ^ 64 < 2 ^ 64 := Nat.mod_lt _ (by decide)
  have hc : ((v % 2 ^ 64) <<< 23) % 2 ^ 64 < 2 ^ 64 := Nat.mod_lt _ (by decide)
  have hd := Nat.xor_lt_two_pow ha hc
  generalize (v % 2 ^ 64) ^^^ (((v % 2 ^ 64) <<< 23) % 2 ^ 64) = d at hd ⊢
  generalize v >>> 64 = b at hb ⊢
  have h1 : d >>> 17 < 2 ^ 64 := by rw [Nat.shiftRight_eq_div_pow]; omega
  have h2 : b >>> 26 < 2 ^ 64 := by rw [Nat.shiftRight_eq_div_pow]; omega
  have h3 := Nat.xor_lt_two_pow (Nat.xor_lt_two_pow (Nat.xor_lt_two_pow hd hb) h1) h2
  generalize d ^^^ b ^^^ d >>> 17 ^^^ b >>> 26 = w at h3 ⊢
  refine Nat.xor_lt_two_pow (by omega) ?_
  rw [Nat.shiftLeft_eq]; omega

/-- Steps. -/
def it : Nat → Nat → Nat
  | 0, v => v
  | k + 1, v => T (it k v)

theorem it_add (j : Nat) : ∀ k v, it (j + k) v = it k (it j v)
  | 0, _ => rfl
  | k + 1, v => by rw [← Nat.add_assoc]; simp only [it]; rw [it_add j k]

theorem it_xor (x y : Nat) : ∀ k, it k (x ^^^ y) = it k x ^^^ it k y
  | 0 => rfl
  | k + 1 => by simp only [it]; rw [it_xor x y k, T_xor]

theorem it_T (v : Nat) (k : Nat) : it k (T v) = T (it k v) := by
  have h1 := it_add 1 k v
  rw [Nat.add_comm] at h1
  exact h1.symm

theorem it_zero : ∀ k, it k 0 = 0
  | 0 => rfl
  | k + 1 => by simp only [it]; rw [it_zero k, T_zero]

theorem it_lt {v : Nat} (h : v < 2 ^ 128) : ∀ k, it k v < 2 ^ 128
  | 0 => h
  | k + 1 => T_lt (it_lt h k)

/-- Bit `k` of a polynomial times a vector. -/
def bit (a k w : Nat) : Nat := ((a >>> k) % 2) * w

theorem bit_cases (a k w : Nat) : bit a k w = 0 ∧ (a >>> k) % 2 = 0 ∨ bit a k w = w ∧ (a >>> k) % 2 = 1 := by
  unfold bit
  rcases Nat.mod_two_eq_zero_or_one (a >>> k) with h | h <;> simp [h]

theorem bit_xor (a b k w : Nat) : bit (a ^^^ b) k w = bit a k w ^^^ bit b k w := by
  have h : ((a ^^^ b) >>> k) % 2 = ((a >>> k) % 2) ^^^ ((b >>> k) % 2) := by
    rw [Nat.shiftRight_xor_distrib]
    exact Nat.xor_mod_two_pow (n := 1)
  unfold bit
  rw [h]
  rcases Nat.mod_two_eq_zero_or_one (a >>> k) with h1 | h1 <;> rcases Nat.mod_two_eq_zero_or_one (b >>> k) with h2 | h2 <;>
    rw [h1, h2] <;> simp

theorem bit_vec (a k v w : Nat) : bit a k (v ^^^ w) = bit a k v ^^^ bit a k w := by
  unfold bit
  rcases Nat.mod_two_eq_zero_or_one (a >>> k) with h1 | h1 <;> rw [h1] <;> simp

theorem bit_T (a k v : Nat) : T (bit a k v) = bit a k (T v) := by
  unfold bit
  rcases Nat.mod_two_eq_zero_or_one (a >>> k) with h1 | h1 <;> rw [h1] <;> simp [T_zero]

theorem bit_zero (a k : Nat) : bit a k 0 = 0 := by unfold bit; simp

/-- The polynomial with the first `k` bits of `a` as coefficients, of the step, at
a vector. -/
def evK : Nat → Nat → Nat → Nat
  | 0, _, _ => 0
  | k + 1, a, v => evK k a v ^^^ bit a k (it k v)

theorem evK_xor (a b v : Nat) : ∀ k, evK k (a ^^^ b) v = evK k a v ^^^ evK k b v
  | 0 => by simp [evK]
  | k + 1 => by simp only [evK]; rw [evK_xor a b v k, bit_xor, xor4]

theorem evK_vec (a v w : Nat) : ∀ k, evK k a (v ^^^ w) = evK k a v ^^^ evK k a w
  | 0 => by simp [evK]
  | k + 1 => by simp only [evK]; rw [evK_vec a v w k, it_xor, bit_vec, xor4]

theorem evK_T (a v : Nat) : ∀ k, T (evK k a v) = evK k a (T v)
  | 0 => T_zero
  | k + 1 => by simp only [evK]; rw [T_xor, evK_T a v k, bit_T, it_T]

theorem evK_zero (v : Nat) : ∀ k, evK k 0 v = 0
  | 0 => rfl
  | k + 1 => by simp only [evK]; rw [evK_zero v k]; simp [bit]

theorem evK_vzero (a : Nat) : ∀ k, evK k a 0 = 0
  | 0 => rfl
  | k + 1 => by simp only [evK]; rw [evK_vzero a k, it_zero, bit_zero]; rfl

theorem evK_one (v : Nat) : ∀ k, evK (k + 1) 1 v = v
  | 0 => by simp [evK, bit, it]
  | k + 1 => by
    have := evK_one v k
    simp only [evK] at this ⊢
    rw [this]
    have : 1 >>> (k + 1) = 0 := by
      rw [Nat.shiftRight_eq_div_pow]
      exact Nat.div_eq_of_lt (Nat.one_lt_two_pow (by omega))
    simp [bit, this]

theorem evK_double (a v : Nat) : ∀ k, evK (k + 1) (2 * a) v = T (evK k a v)
  | 0 => by
    simp only [evK, bit, Nat.shiftRight_zero]
    rw [Nat.mul_mod_right, T_zero]; simp
  | k + 1 => by
    have ih := evK_double a v k
    have h : (2 * a) >>> (k + 1) = a >>> k := by
      rw [Nat.shiftRight_eq_div_pow, Nat.shiftRight_eq_div_pow, Nat.pow_succ, Nat.mul_comm (2 ^ k) 2, Nat.mul_div_mul_left _ _ (by decide)]
    rw [show evK (k + 1 + 1) (2 * a) v = evK (k + 1) (2 * a) v ^^^ bit (2 * a) (k + 1) (it (k + 1) v) from rfl, ih]
    simp only [evK]
    rw [T_xor, bit_T]
    simp only [bit, h, it]

/-- The polynomial of degree 128 that the step is a root of. -/
def P : Nat := 0x101f9f801f6fd0098bd82fd40e01730f9

/-- Multiplication by the unknown, modulo `P`. -/
def xt (a : Nat) : Nat := (2 * a) ^^^ ((a >>> 127) * P)

/-- Multiplication modulo `P` by the first `k` of 128 bits of `a`. -/
def mulAt (a b : Nat) (k : Nat) : Nat := k.rec 0 fun i r => xt r ^^^ (((a >>> (127 - i)) % 2) * b)

/-- Multiplication modulo `P`. -/
def mul (a b : Nat) : Nat := mulAt a b 128

/-- The unknown to the first `k` of 128 bits of `e`, modulo `P`. -/
def powAt (e : Nat) (k : Nat) : Nat := k.rec 1 fun i r =>
  cond (Nat.beq ((e >>> (127 - i)) % 2) 1) (xt (mul r r)) (mul r r)

/-- Powers modulo `P`. -/
def pow (e : Nat) : Nat := powAt e 128

theorem xt_lt {a : Nat} (h : a < 2 ^ 128) : xt a < 2 ^ 128 := by
  have h0 : (xt a) >>> 128 = 0 := by
    unfold xt
    rw [Nat.shiftRight_xor_distrib]
    have h1 : (2 * a) >>> 128 = a >>> 127 := by
      rw [Nat.shiftRight_eq_div_pow, Nat.shiftRight_eq_div_pow]; omega
    rw [h1]
    have h2 : a >>> 127 = 0 ∨ a >>> 127 = 1 := by
      rw [Nat.shiftRight_eq_div_pow]; omega
    rcases h2 with h2 | h2 <;> rw [h2] <;> decide +kernel
  rw [Nat.shiftRight_eq_div_pow] at h0
  exact Nat.lt_of_div_eq_zero (by decide) h0

theorem mulAt_succ (a b k : Nat) : mulAt a b (k + 1) = xt (mulAt a b k) ^^^ (((a >>> (127 - k)) % 2) * b) := rfl

theorem bit_lt (a b : Nat) (h : b < 2 ^ 128) : (a % 2) * b < 2 ^ 128 := by
  rcases Nat.mod_two_eq_zero_or_one a with e | e <;> rw [e] <;> omega

theorem mulAt_lt (a : Nat) {b : Nat} (h : b < 2 ^ 128) : ∀ k, mulAt a b k < 2 ^ 128
  | 0 => by show (0 : Nat) < _; decide
  | k + 1 => by rw [mulAt_succ]; exact Nat.xor_lt_two_pow (xt_lt (mulAt_lt a h k)) (bit_lt _ _ h)

/-- The value of a polynomial of degree below 128. -/
def ev (a v : Nat) : Nat := evK 128 a v

theorem ev_xor (a b v : Nat) : ev (a ^^^ b) v = ev a v ^^^ ev b v := evK_xor a b v 128

theorem ev_zero (v : Nat) : ev 0 v = 0 := evK_zero v 128

theorem ev_xt {a v : Nat} (ha : a < 2 ^ 128) (hP : evK 129 P v = 0) : ev (xt a) v = T (ev a v) := by
  have h1 : evK 129 (xt a) v = ev (xt a) v := by
    have h0 : (xt a) >>> 128 = 0 := by
      rw [Nat.shiftRight_eq_div_pow]; exact Nat.div_eq_of_lt (xt_lt ha)
    show evK 128 (xt a) v ^^^ bit (xt a) 128 (it 128 v) = _
    unfold bit
    rw [h0]; simp [ev]
  rw [← h1]
  unfold xt
  rw [evK_xor, evK_double]
  have h2 : a >>> 127 = 0 ∨ a >>> 127 = 1 := by
    rw [Nat.shiftRight_eq_div_pow]; omega
  have h3 : evK 129 ((a >>> 127) * P) v = 0 := by
    rcases h2 with h2 | h2 <;> rw [h2]
    · rw [Nat.zero_mul, evK_zero]
    · rw [Nat.one_mul, hP]
  rw [h3, Nat.xor_zero]
  rfl

theorem ev_mulAt {a b v : Nat} (hb : b < 2 ^ 128) (hP : evK 129 P v = 0) : ∀ k, k ≤ 128 →
    ev (mulAt a b k) v = evK k (a >>> (128 - k)) (ev b v)
  | 0, _ => by rw [show mulAt a b 0 = 0 from rfl, ev, evK_zero]; simp [evK]
  | k + 1, hk => by
    have ih := ev_mulAt (a := a) hb hP k (by omega)
    have e1 : 128 - k = (127 - k) + 1 := by omega
    have e2 : 128 - (k + 1) = 127 - k := by omega
    rw [mulAt_succ, ev_xor, ev_xt (mulAt_lt a hb k) hP, ih, e1, e2, Nat.shiftRight_succ]
    generalize a >>> (127 - k) = c
    have hc : c = (2 * (c / 2)) ^^^ (c % 2) := by
      refine Nat.eq_of_testBit_eq fun i => ?_
      cases i with
      | zero => 
        rw [Nat.testBit_xor]
        simp [Nat.testBit_zero]
      | succ i =>
        rw [Nat.testBit_xor, Nat.testBit_succ, Nat.testBit_succ, Nat.testBit_succ]
        have h1 : 2 * (c / 2) / 2 = c / 2 := by omega
        have h2 : c % 2 / 2 = 0 := by omega
        rw [h1, h2]; simp
    have h5 : ev (c % 2 * b) v = evK (k + 1) (c % 2) (ev b v) := by
      rcases Nat.mod_two_eq_zero_or_one c with h | h <;> rw [h]
      · rw [Nat.zero_mul, evK_zero, ev_zero]
      · rw [Nat.one_mul, evK_one]
    conv => rhs; rw [hc, evK_xor, evK_double]
    rw [h5]

theorem ev_mul {a b v : Nat} (hb : b < 2 ^ 128) (hP : evK 129 P v = 0) : ev (mul a b) v = ev a (ev b v) :=
  ev_mulAt hb hP 128 (by omega)

theorem powAt_succ (e k : Nat) : powAt e (k + 1) =
    cond (Nat.beq ((e >>> (127 - k)) % 2) 1) (xt (mul (powAt e k) (powAt e k))) (mul (powAt e k) (powAt e k)) := rfl

theorem powAt_lt (e : Nat) : ∀ k, powAt e k < 2 ^ 128
  | 0 => by show (1 : Nat) < _; decide
  | k + 1 => by
    have h := mulAt_lt (powAt e k) (powAt_lt e k) 128
    rw [powAt_succ]
    cases Nat.beq ((e >>> (127 - k)) % 2) 1
    · exact h
    · exact xt_lt h

theorem ev_powAt {e : Nat} (hP : ∀ v, v < 2 ^ 128 → evK 129 P v = 0) : ∀ k, k ≤ 128 → ∀ v, v < 2 ^ 128 →
    ev (powAt e k) v = it ((e >>> (128 - k)) % 2 ^ k) v
  | 0, _, v, _ => by
    rw [show powAt e 0 = 1 from rfl, ev, evK_one, Nat.pow_zero, Nat.mod_one]; rfl
  | k + 1, hk, v, hv => by
    have ih := ev_powAt (e := e) hP k (by omega)
    have e1 : 128 - k = (127 - k) + 1 := by omega
    have e2 : 128 - (k + 1) = 127 - k := by omega
    rw [e1] at ih
    rw [powAt_succ, e2]
    have hm : ev (mul (powAt e k) (powAt e k)) v = it (2 * ((e >>> (127 - k)) / 2 % 2 ^ k)) v := by
      rw [ev_mul (powAt_lt e k) (hP v hv), ih v hv, ih _ (it_lt hv _), Nat.two_mul, it_add]
      rw [Nat.shiftRight_succ]
    generalize e >>> (127 - k) = f at hm ⊢
    have h4 : f % 2 ^ (k + 1) = 2 * (f / 2 % 2 ^ k) + f % 2 := by
      rw [Nat.pow_succ, Nat.mul_comm, Nat.mod_mul]; omega
    rw [h4]
    rcases Nat.mod_two_eq_zero_or_one f with h | h <;> rw [h]
    · exact hm
    · show ev (xt (mul (powAt e k) (powAt e k))) v = _
      rw [ev_xt (a := mul (powAt e k) (powAt e k)) (mulAt_lt _ (powAt_lt e k) 128) (hP v hv), hm]
      rfl

theorem ev_pow {e v : Nat} (hP : ∀ v, v < 2 ^ 128 → evK 129 P v = 0) (he : e < 2 ^ 128) (hv : v < 2 ^ 128) : ev (pow e) v = it e v := by
  have := ev_powAt (e := e) hP 128 (by omega) v hv
  rw [show (128 - 128) = 0 from rfl, Nat.shiftRight_zero, Nat.mod_eq_of_lt he] at this
  exact this

end Verif.C68
