import Verif.Model.Bytes

namespace Verif

@[simp] theorem le_length (w n : Nat) : (le w n).length = w := by
  induction w generalizing n with
  | zero => rfl
  | succ w ih => simp [le, ih]

theorem leVal_le (w n : Nat) : leVal (le w n) = n % 256 ^ w := by
  induction w generalizing n with
  | zero => simp [le, leVal, Nat.mod_one]
  | succ w ih =>
    simp only [le, leVal, ih, UInt8.toNat_ofNat']
    have h : (256 : Nat) ^ (w + 1) = 256 * 256 ^ w := by rw [Nat.pow_succ, Nat.mul_comm]
    rw [h, Nat.mod_mul]

theorem leVal_le_lt {w n : Nat} (h : n < 256 ^ w) : leVal (le w n) = n := by
  rw [leVal_le, Nat.mod_eq_of_lt h]

theorem leVal_lt (bs : Bytes) : leVal bs < 256 ^ bs.length := by
  induction bs with
  | nil => simp [leVal]
  | cons b bs ih =>
    have := b.toNat_lt
    simp only [leVal, List.length_cons, Nat.pow_succ]
    omega

theorem le_leVal (bs : Bytes) : le bs.length (leVal bs) = bs := by
  induction bs with
  | nil => rfl
  | cons b bs ih =>
    have hb := b.toNat_lt
    simp only [leVal, List.length_cons, le]
    have h1 : (b.toNat + 256 * leVal bs) / 256 = leVal bs := by omega
    rw [h1, ih]
    congr 1
    apply UInt8.toNat.inj
    rw [UInt8.toNat_ofNat']
    omega

theorem getU_append (w : Nat) (xs rest : Bytes) (h : xs.length = w) :
    getU w (xs ++ rest) = .ok (leVal xs, rest) := by
  subst h
  simp [getU]

theorem getU_le {w n : Nat} (rest : Bytes) (h : n < 256 ^ w) :
    getU w (le w n ++ rest) = .ok (n, rest) := by
  rw [getU_append w _ _ (le_length w n), leVal_le_lt h]

theorem getU_some {w : Nat} {bs rest : Bytes} {n : Nat} (h : getU w bs = .ok (n, rest)) :
    rest.length + w = bs.length ∧ bs = le w n ++ rest := by
  unfold getU at h
  split at h
  · simp at h
  · simp only [Res.ok.injEq, Prod.mk.injEq] at h
    obtain ⟨rfl, rfl⟩ := h
    have hl : (bs.take w).length = w := by simp; omega
    refine ⟨by simp; omega, ?_⟩
    have := le_leVal (bs.take w)
    rw [hl] at this
    rw [this, List.take_append_drop]

theorem getS_le {w n : Nat} (rest : Bytes) (h : n < 256 ^ w) :
    getS w (le w n ++ rest) = .ok (signed w n, rest) := by
  simp [getS, getU_le rest h]

end Verif
