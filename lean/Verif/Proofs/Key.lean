import Verif.Model.Event
import Verif.Spec.Order

/-! Helper lemmas on the event order. -/
namespace Verif
open Spec

theorem lexCmp_refl (a : List UInt8) : lexCmp a a = 0 := by
  induction a with
  | nil => rfl
  | cons x xs ih => simp [lexCmp, ih]

theorem lexCmp_range (a b : List UInt8) : lexCmp a b = -1 ∨ lexCmp a b = 0 ∨ lexCmp a b = 1 := by
  induction a generalizing b with
  | nil => cases b <;> simp [lexCmp]
  | cons x xs ih =>
    cases b with
    | nil => simp [lexCmp]
    | cons y ys => simp only [lexCmp]; split; · simp
                   split; · simp
                   exact ih ys

theorem lexCmp_eq_zero {a b : List UInt8} : lexCmp a b = 0 ↔ a = b := by
  constructor
  · intro h
    induction a generalizing b with
    | nil => cases b <;> simp [lexCmp] at h ⊢
    | cons x xs ih =>
      cases b with
      | nil => simp [lexCmp] at h
      | cons y ys =>
        simp only [lexCmp] at h
        split at h
        · simp at h
        · split at h
          · simp at h
          · have := ih h
            have hxy : x = y := UInt8.le_antisymm (UInt8.not_lt.1 ‹_›) (UInt8.not_lt.1 ‹_›)
            simp [this, hxy]
  · rintro rfl; exact lexCmp_refl a

theorem lexCmp_swap (a b : List UInt8) : lexCmp a b = - lexCmp b a := by
  induction a generalizing b with
  | nil => cases b <;> simp [lexCmp]
  | cons x xs ih =>
    cases b with
    | nil => simp [lexCmp]
    | cons y ys =>
      simp only [lexCmp]
      by_cases h1 : x < y
      · have : ¬ y < x := UInt8.not_lt.2 (UInt8.le_of_lt h1)
        simp [h1, this]
      · by_cases h2 : y < x
        · simp [h1, h2]
        · simp [h1, h2, ih ys]

theorem lexCmp_trans {a b c : List UInt8} (h1 : lexCmp a b < 0) (h2 : lexCmp b c < 0) :
    lexCmp a c < 0 := by
  induction a generalizing b c with
  | nil =>
    cases b with
    | nil => simp [lexCmp] at h1
    | cons y ys =>
      cases c with
      | nil => simp [lexCmp] at h2
      | cons z zs => simp [lexCmp]
  | cons x xs ih =>
    cases b with
    | nil => simp [lexCmp] at h1
    | cons y ys =>
      cases c with
      | nil => simp [lexCmp] at h2
      | cons z zs =>
        simp only [lexCmp] at h1 h2 ⊢
        by_cases hxy : x < y
        · by_cases hyz : y < z
          · simp [UInt8.lt_trans hxy hyz]
          · rw [if_neg hyz] at h2
            by_cases hzy : z < y
            · simp [hzy] at h2
            · have : y = z := UInt8.le_antisymm (UInt8.not_lt.1 hzy) (UInt8.not_lt.1 hyz)
              subst this; simp [hxy]
        · rw [if_neg hxy] at h1
          by_cases hyx : y < x
          · simp [hyx] at h1
          · have : x = y := UInt8.le_antisymm (UInt8.not_lt.1 hyx) (UInt8.not_lt.1 hxy)
            subst this
            rw [if_neg hxy] at h1
            by_cases hyz : x < z
            · simp [hyz]
            · rw [if_neg hyz] at h2 ⊢
              by_cases hzy : z < x
              · simp [hzy] at h2
              · rw [if_neg hzy] at h2 ⊢
                exact ih h1 h2

theorem lexCmp_lawful : LawfulCmp lexCmp where
  gt_iff a b := by have := lexCmp_swap a b; omega
  lt_trans a b c := lexCmp_trans
  lt_eq a b c h1 h2 := by rw [lexCmp_eq_zero] at h2; subst h2; exact h1
  eq_lt a b c h1 h2 := by rw [lexCmp_eq_zero] at h1; subst h1; exact h2

theorem keyCmp_range (a b : Nat × List UInt8) : keyCmp a b = -1 ∨ keyCmp a b = 0 ∨ keyCmp a b = 1 := by
  unfold keyCmp; split; · simp
  split; · simp
  exact lexCmp_range _ _

theorem keyCmp_eq_zero {a b : Nat × List UInt8} : keyCmp a b = 0 ↔ a = b := by
  obtain ⟨a1, a2⟩ := a; obtain ⟨b1, b2⟩ := b
  simp only [keyCmp, Prod.mk.injEq]
  split
  · simp; omega
  · split
    · simp; omega
    · rw [lexCmp_eq_zero]; have : a1 = b1 := by omega
      simp [this]

theorem keyCmp_refl (a : Nat × List UInt8) : keyCmp a a = 0 := keyCmp_eq_zero.2 rfl

theorem keyCmp_swap (a b : Nat × List UInt8) : keyCmp a b = - keyCmp b a := by
  simp only [keyCmp]
  by_cases h1 : a.1 < b.1
  · have : ¬ b.1 < a.1 := by omega
    simp [h1, this]
  · by_cases h2 : b.1 < a.1
    · simp [h1, h2]
    · simp [h1, h2]; exact lexCmp_swap _ _

theorem keyCmp_trans {a b c : Nat × List UInt8} (h1 : keyCmp a b < 0) (h2 : keyCmp b c < 0) :
    keyCmp a c < 0 := by
  simp only [keyCmp] at *
  by_cases hab : a.1 < b.1
  · have : ¬ c.1 < b.1 := by
      intro h; rw [if_neg (by omega), if_pos h] at h2; omega
    rw [if_pos (by omega)]; omega
  · rw [if_neg hab] at h1
    by_cases hba : b.1 < a.1
    · rw [if_pos hba] at h1; omega
    · rw [if_neg hba] at h1
      by_cases hbc : b.1 < c.1
      · rw [if_pos (by omega)]; omega
      · rw [if_neg hbc] at h2
        by_cases hcb : c.1 < b.1
        · rw [if_pos hcb] at h2; omega
        · rw [if_neg hcb] at h2
          rw [if_neg (by omega), if_neg (by omega)]
          exact lexCmp_trans h1 h2

theorem keyCmp_lawful : LawfulCmp keyCmp where
  gt_iff a b := by have := keyCmp_swap a b; omega
  lt_trans a b c := keyCmp_trans
  lt_eq a b c h1 h2 := by rw [keyCmp_eq_zero] at h2; subst h2; exact h1
  eq_lt a b c h1 h2 := by rw [keyCmp_eq_zero] at h1; subst h1; exact h2

theorem lexCmp_take (a b : List UInt8) (n : Nat)
    (hn : n = if a.length < b.length then a.length else b.length) :
    lexCmp a b = if lexCmp (a.take n) (b.take n) = 0 then ((a.length : Int) - b.length).sign
      else lexCmp (a.take n) (b.take n) := by
  induction a generalizing b n with
  | nil =>
    cases b with
    | nil => simp [lexCmp]
    | cons y ys =>
      simp only [List.length_nil, List.length_cons] at hn
      rw [if_pos (by omega)] at hn; subst hn
      simp only [List.take_nil, List.take_zero, lexCmp, if_true]
      rw [Int.sign_eq_neg_one_of_neg]; simp
  | cons x xs ih =>
    cases b with
    | nil =>
      simp at hn; subst hn
      simp only [List.take_nil, List.take_zero, lexCmp, if_true]
      rw [Int.sign_eq_one_of_pos]; simp
    | cons y ys =>
      obtain ⟨m, rfl⟩ : ∃ m, n = m + 1 := by
        refine ⟨n - 1, ?_⟩; simp at hn; split at hn <;> omega
      have ihm := ih ys m (by simp at hn; split at hn <;> split <;> omega)
      simp only [List.take_succ_cons, lexCmp]
      split
      · simp
      · split
        · simp
        · rw [ihm]
          have : ((x :: xs).length : Int) - (y :: ys).length = (xs.length : Int) - ys.length := by
            simp only [List.length_cons]; omega
          rw [this]

theorem compare_sign (mc : MemCmp) {a b : Event}
    (h1 : -9223372036854775808 ≤ (a.id : Int) - b.id) (h2 : (a.id : Int) - b.id < 9223372036854775808) :
    (compare mc a b).sign = keyCmp a.pair b.pair ∧
    (-2147483648 ≤ (a.id : Int) - b.id → (a.id : Int) - b.id < 2147483648 → a.key.length ≤ 255 →
      b.key.length ≤ 255 → -2147483648 ≤ compare mc a b ∧ compare mc a b < 2147483648) := by
  have hd : wrapS64 (wrapU64 ((a.id : Int) - b.id)) = (a.id : Int) - b.id := by
    unfold wrapS64 wrapU64; omega
  have hk : keyCmp a.pair b.pair =
    if a.id < b.id then -1 else if b.id < a.id then 1 else lexCmp a.key b.key := rfl
  rw [hk]
  simp only [compare, hd]
  by_cases hz : (a.id : Int) - b.id = 0
  · have hlt : ¬ a.id < b.id := by omega
    have hgt : ¬ b.id < a.id := by omega
    simp only [hz, ne_eq, not_true, if_false, hlt, hgt]
    by_cases hk : a.key.length = 0 ∧ b.key.length = 0
    · obtain ⟨k1, k2⟩ := hk
      rw [List.length_eq_zero_iff] at k1 k2
      simp [k1, k2, lexCmp]
    · rw [if_neg hk]
      generalize hn : (if a.key.length < b.key.length then a.key.length else b.key.length) = n
      have hs := mc.sign_eq (a.key.take n) (b.key.take n) (by
        simp only [List.length_take, ← hn]; split <;> omega)
      have hr := mc.range (a.key.take n) (b.key.take n)
      rw [lexCmp_take a.key b.key n hn.symm, ← hs]
      simp only [Int.sign_eq_zero_iff_zero]
      refine ⟨by split <;> rfl, fun _ _ _ _ => ?_⟩
      split <;> omega
  · rw [if_pos hz]
    refine ⟨?_, fun h3 h4 _ _ => ⟨h3, h4⟩⟩
    by_cases hlt : a.id < b.id
    · rw [if_pos hlt]; exact Int.sign_eq_neg_one_of_neg (by omega)
    · rw [if_neg hlt, if_pos (by omega)]; exact Int.sign_eq_one_of_pos (by omega)

theorem compareInt_sign (mc : MemCmp) {a b : Event}
    (h1 : -2147483648 ≤ (a.id : Int) - b.id) (h2 : (a.id : Int) - b.id < 2147483648)
    (ha : a.key.length ≤ 255) (hb : b.key.length ≤ 255) :
    (compareInt mc a b).sign = keyCmp a.pair b.pair := by
  obtain ⟨h3, h4⟩ := compare_sign mc (a := a) (b := b) (by omega) (by omega)
  obtain ⟨h5, h6⟩ := h4 h1 h2 ha hb
  rw [compareInt, wrapS32_id h5 h6, h3]

theorem compareU64_ok {a b : Nat} (ha : a < 9223372036854775808) (hb : b < 9223372036854775808) :
    compareU64 a b = .ok ((a : Int) - b) := by
  have e1 : toS64 a = a := by unfold toS64; exact wrapS64_id (by omega) (by omega)
  have e2 : toS64 b = b := by unfold toS64; exact wrapS64_id (by omega) (by omega)
  simp only [compareU64, e1, e2]
  rw [if_pos (by omega)]

/-- Signs as inequalities. -/
theorem sign_neg_iff {x k : Int} (h : x.sign = k) (_ : k = -1 ∨ k = 0 ∨ k = 1) :
    (x < 0 ↔ k < 0) ∧ (x = 0 ↔ k = 0) ∧ (x > 0 ↔ k > 0) := by
  rcases Int.lt_trichotomy x 0 with hx | hx | hx
  · rw [Int.sign_eq_neg_one_of_neg hx] at h; omega
  · subst hx; simp at h; omega
  · rw [Int.sign_eq_one_of_pos hx] at h; omega

/-- A concrete memcmp. -/
def memCmpStd : MemCmp where
  fn := lexCmp
  sign_eq a b _ := by rcases lexCmp_range a b with h | h | h <;> rw [h] <;> rfl
  range a b := by rcases lexCmp_range a b with h | h | h <;> omega

end Verif
