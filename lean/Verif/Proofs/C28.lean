import Verif.Spec.C28

/-! Helper lemmas for C28. -/
namespace Verif.C28
open FileName

theorem decPad_length (w n : Nat) : (decPad w n).length = w := by
  induction w with
  | zero => rfl
  | succ w ih => simp [decPad, ih]

theorem decPad_mod (w n k : Nat) : decPad w (n + 10 ^ w * k) = decPad w n := by
  induction w generalizing k with
  | zero => rfl
  | succ w ih =>
    have e : 10 ^ (w + 1) * k = 10 ^ w * (10 * k) := by rw [Nat.pow_succ, Nat.mul_assoc]
    have hp : 0 < 10 ^ w := Nat.pow_pos (by omega)
    simp only [decPad, e, ih, Nat.add_mul_div_left _ _ hp]
    congr 2; omega

/-- Decimal digits. -/
def Digits (s : List Nat) : Prop := ∀ c ∈ s, 48 ≤ c ∧ c ≤ 57

theorem decPad_digits (w n : Nat) : Digits (decPad w n) := by
  induction w with
  | zero => simp [decPad, Digits]
  | succ w ih =>
    intro c hc
    rcases List.mem_cons.1 hc with rfl | hc
    · have := Nat.mod_lt (n / 10 ^ w) (by omega : 10 > 0); omega
    · exact ih c hc

theorem foldl_number (s : List Nat) (n : Nat) :
    s.foldl (fun n c => n * 10 + (c - 48)) n = n * 10 ^ s.length + number s := by
  induction s generalizing n with
  | nil => simp [number]
  | cons c s ih =>
    simp only [number, List.foldl_cons, List.length_cons]
    rw [ih, ih (0 * 10 + (c - 48)), Nat.pow_succ, Nat.add_mul, Nat.zero_mul, Nat.zero_add,
      Nat.mul_assoc, Nat.mul_comm 10]
    omega

theorem number_cons (c : Nat) (s : List Nat) : number (c :: s) = (c - 48) * 10 ^ s.length + number s := by
  have := foldl_number s (0 * 10 + (c - 48))
  simp only [number, List.foldl_cons] at *
  rw [this]; simp

theorem number_lt {s : List Nat} (h : Digits s) : number s < 10 ^ s.length := by
  induction s with
  | nil => simp [number]
  | cons c s ih =>
    have h1 := h c (by simp)
    have h2 := ih (fun d hd => h d (by simp [hd]))
    rw [number_cons, List.length_cons, Nat.pow_succ]
    have : (c - 48) * 10 ^ s.length ≤ 9 * 10 ^ s.length := Nat.mul_le_mul_right _ (by omega)
    omega

/-- A digit string is the padded form of its number. -/
theorem decPad_number {s : List Nat} (h : Digits s) : decPad s.length (number s) = s := by
  induction s with
  | nil => rfl
  | cons c s ih =>
    have h1 := h c (by simp)
    have hs : Digits s := fun d hd => h d (by simp [hd])
    have hp : 0 < 10 ^ s.length := Nat.pow_pos (by omega)
    rw [List.length_cons, decPad, number_cons, Nat.add_comm (_ * _), Nat.mul_comm (c - 48), decPad_mod, ih hs,
      Nat.add_mul_div_left _ _ hp, Nat.div_eq_of_lt (number_lt hs)]
    congr 1; omega

/-- The padded form has the number it was made from. -/
theorem number_decPad (w n : Nat) (h : n < 10 ^ w) : number (decPad w n) = n := by
  induction w generalizing n with
  | zero => simp [decPad, number] at *; omega
  | succ w ih =>
    have hp : 0 < 10 ^ w := Nat.pow_pos (by omega)
    have hq : n / 10 ^ w < 10 := Nat.div_lt_of_lt_mul (by rw [← Nat.pow_succ]; exact h)
    rw [decPad, number_cons, decPad_length]
    have hd := Nat.div_add_mod n (10 ^ w)
    have e : decPad w n = decPad w (n % 10 ^ w) := by
      conv => lhs; rw [← hd, Nat.add_comm]
      rw [decPad_mod]
    rw [e, ih _ (Nat.mod_lt _ hp), Nat.mod_eq_of_lt hq]
    have : 48 + n / 10 ^ w - 48 = n / 10 ^ w := Nat.add_sub_cancel_left ..
    rw [this, Nat.mul_comm]; exact hd

theorem number_mono_head (n c : Nat) (s : List Nat) (h : (n * 10 + (c - 48)) * 10 ^ s.length + number s
    < 18446744073709551616) : n * 10 + (c - 48) < 18446744073709551616 := by
  have hp : 0 < 10 ^ s.length := Nat.pow_pos (by omega)
  have : (n * 10 + (c - 48)) * 1 ≤ (n * 10 + (c - 48)) * 10 ^ s.length := Nat.mul_le_mul_left _ hp
  omega

/-- The number loop on digits, without overflow. -/
theorem digits_run (s rest : List Nat) (hrest : rest = [] ∨ ∃ r, rest = 46 :: r) :
    ∀ n, Digits s → n * 10 ^ s.length + number s < 18446744073709551616 →
      digits (s ++ rest) n = .ok (some (n * 10 ^ s.length + number s, rest)) := by
  induction s with
  | nil =>
    intro n _ _
    rcases hrest with rfl | ⟨r, rfl⟩
    · simp [digits, number]
    · simp [digits, number]
  | cons c s ih =>
    intro n hd hb
    have h1 := hd c (by simp)
    rw [number_cons, List.length_cons, Nat.pow_succ] at hb ⊢
    have e : n * (10 ^ s.length * 10) = n * 10 * 10 ^ s.length := by
      rw [Nat.mul_assoc, Nat.mul_comm 10]
    have hb2 : (n * 10 + (c - 48)) * 10 ^ s.length + number s < 18446744073709551616 := by
      rw [Nat.add_mul]; omega
    have hlt := number_mono_head n c s hb2
    have hw : wrapU64 ((n : Int) * 10 + c - 48) = n * 10 + (c - 48) := by
      unfold wrapU64; omega
    simp only [List.cons_append, digits]
    rw [if_neg (by omega), if_neg (by omega), if_neg (by omega), hw,
      ih _ (fun d hd' => hd d (by simp [hd'])) hb2, Nat.add_mul]
    congr 3; omega

/-- The number loop stops at a character that is no digit. -/
theorem digits_bad (s : List Nat) (hs : ∀ c ∈ s, c < 128 ∧ c ≠ 46) (hbad : ¬ Digits s) (rest : List Nat) :
    ∀ n, digits (s ++ rest) n = .ok none := by
  induction s with
  | nil => exact absurd (by simp [Digits]) hbad
  | cons c s ih =>
    intro n
    have h1 := hs c (by simp)
    simp only [List.cons_append, digits]
    rw [if_neg h1.2, if_neg (by omega)]
    by_cases hc : c < 48 ∨ c > 57
    · rw [if_pos hc]
    · rw [if_neg hc]
      exact ih (fun d hd => hs d (by simp [hd])) (fun h => hbad fun d hd => by
        rcases List.mem_cons.1 hd with rfl | hd
        · omega
        · exact h d hd) _

/-- Suffix of a state. -/
def suffix : FState → List Nat
  | .id => []
  | .incomplete => sIncomplete
  | .complete => sComplete
  | .cloud => sCloud
  | .cloudIncomplete => sCloudIncomplete

theorem idName_eq (n : Nat) (st : FState) : idName n st = decPad 20 n ++ suffix st := by
  cases st <;> simp [idName, suffix]

theorem suffix_dot (st : FState) : suffix st = [] ∨ ∃ r, suffix st = 46 :: r := by
  cases st
  · exact .inl rfl
  all_goals exact .inr ⟨_, rfl⟩

/-- State of a suffix, as in the code. -/
def stateOf (n : Nat) (rest : List Nat) : Option (Nat × FState) :=
  if rest = [] then some (n, .id)
  else if rest = sIncomplete then some (n, .incomplete)
  else if rest = sComplete then some (n, .complete)
  else if rest = sCloud then some (n, .cloud)
  else if rest = sCloudIncomplete then some (n, .cloudIncomplete)
  else none

theorem stateOf_iff (n m : Nat) (rest : List Nat) (st : FState) :
    stateOf n rest = some (m, st) ↔ n = m ∧ rest = suffix st := by
  unfold stateOf
  constructor
  · intro h
    split at h
    · simp at h; obtain ⟨rfl, rfl⟩ := h; exact ⟨rfl, by assumption⟩
    split at h
    · simp at h; obtain ⟨rfl, rfl⟩ := h; exact ⟨rfl, by assumption⟩
    split at h
    · simp at h; obtain ⟨rfl, rfl⟩ := h; exact ⟨rfl, by assumption⟩
    split at h
    · simp at h; obtain ⟨rfl, rfl⟩ := h; exact ⟨rfl, by assumption⟩
    split at h
    · simp at h; obtain ⟨rfl, rfl⟩ := h; exact ⟨rfl, by assumption⟩
    · simp at h
  · rintro ⟨rfl, rfl⟩
    cases st <;> simp [suffix, sIncomplete, sComplete, sCloud, sCloudIncomplete]

theorem recoverId_eq (name : List Nat) : recoverId name = (digits name 0).bind fun
    | none => .ok none
    | some (n, rest) => .ok (stateOf n rest) := rfl

end Verif.C28
