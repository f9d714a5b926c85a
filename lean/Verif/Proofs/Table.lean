import Verif.Spec.Table
import Verif.Proofs.Key

/-! Helper lemmas about ordered tables. -/
namespace Verif
open Spec

theorem evCmp_lawful : LawfulCmp evCmp where
  gt_iff a b := keyCmp_lawful.gt_iff _ _
  lt_trans a b c := keyCmp_lawful.lt_trans _ _ _
  lt_eq a b c := keyCmp_lawful.lt_eq _ _ _
  eq_lt a b c := keyCmp_lawful.eq_lt _ _ _

theorem evCmp_refl (a : Event) : evCmp a a = 0 := keyCmp_refl _
theorem evCmp_swap (a b : Event) : evCmp a b = - evCmp b a := keyCmp_swap _ _
theorem evCmp_range (a b : Event) : evCmp a b = -1 ∨ evCmp a b = 0 ∨ evCmp a b = 1 := keyCmp_range _ _
theorem evCmp_trans {a b c : Event} (h1 : evCmp a b < 0) (h2 : evCmp b c < 0) : evCmp a c < 0 :=
  keyCmp_trans h1 h2
theorem evCmp_eq {a b : Event} : evCmp a b = 0 ↔ a.pair = b.pair := keyCmp_eq_zero
theorem evCmp_lt_eq {a b c : Event} (h1 : evCmp a b < 0) (h2 : evCmp b c = 0) : evCmp a c < 0 :=
  evCmp_lawful.lt_eq _ _ _ h1 h2
theorem evCmp_eq_lt {a b c : Event} (h1 : evCmp a b = 0) (h2 : evCmp b c < 0) : evCmp a c < 0 :=
  evCmp_lawful.eq_lt _ _ _ h1 h2
theorem evCmp_congr {a b c : Event} (h : evCmp a b = 0) : evCmp a c = evCmp b c := by
  simp only [evCmp] at *; rw [keyCmp_eq_zero] at h; rw [h]
theorem evCmp_congr_right {a b c : Event} (h : evCmp a b = 0) : evCmp c a = evCmp c b := by
  simp only [evCmp] at *; rw [keyCmp_eq_zero] at h; rw [h]

theorem compareInt_within (mc : MemCmp) {base : Nat} {a b : Event} (ha : Within base a)
    (hb : Within base b) :
    (compareInt mc a b < 0 ↔ evCmp a b < 0) ∧ (compareInt mc a b = 0 ↔ evCmp a b = 0) ∧
      (compareInt mc a b > 0 ↔ evCmp a b > 0) := by
  obtain ⟨a1, a2, a3⟩ := ha
  obtain ⟨b1, b2, b3⟩ := hb
  exact sign_neg_iff (compareInt_sign mc (by omega) (by omega) a3 b3) (keyCmp_range _ _)

theorem compare_within (mc : MemCmp) {base : Nat} {a b : Event} (ha : Within base a)
    (hb : Within base b) :
    (compare mc a b < 0 ↔ evCmp a b < 0) ∧ (compare mc a b = 0 ↔ evCmp a b = 0) ∧
      (compare mc a b > 0 ↔ evCmp a b > 0) := by
  obtain ⟨a1, a2, a3⟩ := ha
  obtain ⟨b1, b2, b3⟩ := hb
  exact sign_neg_iff (compare_sign mc (by omega) (by omega)).1 (keyCmp_range _ _)

theorem filter_all {α : Type} {l : List α} {p : α → Bool} (h : ∀ a ∈ l, p a = true) : l.filter p = l :=
  List.filter_eq_self.2 h
theorem filter_none {α : Type} {l : List α} {p : α → Bool} (h : ∀ a ∈ l, p a = false) : l.filter p = [] := by
  rw [List.filter_eq_nil_iff]; intro a ha; simp [h a ha]

theorem put_insert {A B : List Event} {e : Event} (hA : ∀ a ∈ A, evCmp a e < 0)
    (hB : ∀ a ∈ B, evCmp a e > 0) : put e (A ++ B) = A ++ e :: B := by
  simp only [put, List.filter_append]
  rw [filter_all (l := A) (by simpa using hA), filter_none (l := B) (by
        intro a ha; have := hB a ha; simp; omega),
      filter_none (l := A) (by intro a ha; have := hA a ha; simp; omega),
      filter_all (l := B) (by simpa using hB)]
  simp

theorem put_replace {A B : List Event} {e x : Event} (hA : ∀ a ∈ A, evCmp a e < 0)
    (hx : evCmp x e = 0) (hB : ∀ a ∈ B, evCmp a e > 0) : put e (A ++ x :: B) = A ++ e :: B := by
  simp only [put, List.filter_append, List.filter_cons, hx]
  rw [filter_all (l := A) (by simpa using hA), filter_none (l := B) (by
        intro a ha; have := hB a ha; simp; omega),
      filter_none (l := A) (by intro a ha; have := hA a ha; simp; omega),
      filter_all (l := B) (by simpa using hB)]
  simp

theorem lookup_insert {A B : List Event} {e : Event} (hA : ∀ a ∈ A, evCmp a e < 0)
    (hB : ∀ a ∈ B, evCmp a e > 0) : lookup e (A ++ B) = none := by
  rw [lookup, List.find?_eq_none]
  intro a ha; simp at ha ⊢
  rcases ha with ha | ha
  · have := hA a ha; omega
  · have := hB a ha; omega

theorem lookup_replace {A B : List Event} {e x : Event} (hA : ∀ a ∈ A, evCmp a e < 0)
    (hx : evCmp x e = 0) : lookup e (A ++ x :: B) = some x := by
  rw [lookup, List.find?_append]
  have : A.find? (fun a => evCmp a e == 0) = none := by
    rw [List.find?_eq_none]; intro a ha; have := hA a ha; simp; omega
  simp [this, hx]

theorem ascending_insert {A B : List Event} {e : Event} (h : Ascending (A ++ B))
    (hA : ∀ a ∈ A, evCmp a e < 0) (hB : ∀ a ∈ B, evCmp a e > 0) : Ascending (A ++ e :: B) := by
  unfold Ascending at *
  rw [List.pairwise_append] at h ⊢
  obtain ⟨h1, h2, h3⟩ := h
  refine ⟨h1, List.pairwise_cons.2 ⟨fun a ha => ?_, h2⟩, ?_⟩
  · have := hB a ha; have := evCmp_swap a e; omega
  · intro a ha b hb
    simp at hb
    rcases hb with rfl | hb
    · exact hA a ha
    · exact h3 a ha b hb

theorem ascending_replace {A B : List Event} {e x : Event} (h : Ascending (A ++ x :: B))
    (hx : evCmp x e = 0) : Ascending (A ++ e :: B) := by
  unfold Ascending at *
  rw [List.pairwise_append, List.pairwise_cons] at h ⊢
  obtain ⟨h1, ⟨h2, h3⟩, h4⟩ := h
  refine ⟨h1, ⟨fun a ha => ?_, h3⟩, ?_⟩
  · rw [← evCmp_congr hx]; exact h2 a ha
  · intro a ha b hb
    simp at hb
    rcases hb with rfl | hb
    · rw [← evCmp_congr_right hx]; exact h4 a ha x (by simp)
    · exact h4 a ha b (by simp [hb])

/-- Every ascending list splits at a key. -/
theorem ascending_split {L : List Event} (h : Ascending L) (e : Event) :
    (∃ A B, L = A ++ B ∧ (∀ a ∈ A, evCmp a e < 0) ∧ (∀ a ∈ B, evCmp a e > 0)) ∨
    (∃ A x B, L = A ++ x :: B ∧ (∀ a ∈ A, evCmp a e < 0) ∧ evCmp x e = 0 ∧
      (∀ a ∈ B, evCmp a e > 0)) := by
  induction L with
  | nil => exact .inl ⟨[], [], rfl, by simp, by simp⟩
  | cons y ys ih =>
    have h' := h
    unfold Ascending at h
    rw [List.pairwise_cons] at h
    obtain ⟨h1, h2⟩ := h
    rcases Int.lt_trichotomy (evCmp y e) 0 with hy | hy | hy
    · rcases ih h2 with ⟨A, B, rfl, hA, hB⟩ | ⟨A, x, B, rfl, hA, hx, hB⟩
      · refine .inl ⟨y :: A, B, rfl, ?_, hB⟩
        intro a ha; simp at ha; rcases ha with rfl | ha
        · exact hy
        · exact hA a ha
      · refine .inr ⟨y :: A, x, B, rfl, ?_, hx, hB⟩
        intro a ha; simp at ha; rcases ha with rfl | ha
        · exact hy
        · exact hA a ha
    · refine .inr ⟨[], y, ys, rfl, by simp, hy, ?_⟩
      intro a ha
      have := h1 a ha
      have h5 := evCmp_congr (c := a) hy
      have := evCmp_swap a e
      omega
    · refine .inl ⟨[], y :: ys, rfl, by simp, ?_⟩
      intro a ha; simp at ha; rcases ha with rfl | ha
      · exact hy
      · have h3 := h1 a ha
        have h4 : evCmp e y < 0 := by have := evCmp_swap y e; omega
        have := evCmp_trans h4 h3
        have := evCmp_swap a e; omega

theorem put_ascending {L : List Event} (h : Ascending L) (e : Event) : Ascending (put e L) := by
  rcases ascending_split h e with ⟨A, B, rfl, hA, hB⟩ | ⟨A, x, B, rfl, hA, hx, hB⟩
  · rw [put_insert hA hB]; exact ascending_insert h hA hB
  · rw [put_replace hA hx hB]; exact ascending_replace h hx

theorem mem_put {L : List Event} {e x : Event} :
    x ∈ put e L ↔ x = e ∨ (x ∈ L ∧ evCmp x e ≠ 0) := by
  simp only [put, List.mem_append, List.mem_filter, List.mem_cons, decide_eq_true_eq]
  constructor
  · rintro (⟨h1, h2⟩ | h | ⟨h1, h2⟩)
    · exact .inr ⟨h1, by omega⟩
    · exact .inl h
    · exact .inr ⟨h1, by omega⟩
  · rintro (h | ⟨h1, h2⟩)
    · exact .inr (.inl h)
    · rcases Int.lt_or_gt_of_ne h2 with h | h
      · exact .inl ⟨h1, h⟩
      · exact .inr (.inr ⟨h1, h⟩)

theorem lookup_put_self (e : Event) (L : List Event) : lookup e (put e L) = some e := by
  have h : ∀ a ∈ L.filter (fun a => evCmp a e < 0), evCmp a e < 0 := by
    intro a ha; simpa using (List.mem_filter.1 ha).2
  exact lookup_replace h (evCmp_refl e)

end Verif
