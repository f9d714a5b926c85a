import Verif.Proofs.ParseRun
import Verif.Proofs.C53

/-! C58: a text has one reading; the two grammars agree on plain commands; no
failed assert and no undefined behaviour where C53 has none. -/
namespace Verif.C58
open Lex Parse

/-- The first character after a gap. -/
theorem gap_unique {g g' : List Nat} {c c' : Nat} {r r' : List Nat} (hg : Gap g) (hg' : Gap g')
    (h1 : c < 128 ∧ isSpace c = false ∧ c ≠ 35) (h1' : c' < 128 ∧ isSpace c' = false ∧ c' ≠ 35)
    (e : g ++ c :: r = g' ++ c' :: r') : c = c' ∧ r = r' := by
  have h := skip_gap hg (c :: r)
  have h' := skip_gap hg' (c' :: r')
  rw [C47.skip_stop _ _ h1.1 h1.2.1 h1.2.2] at h
  rw [C47.skip_stop _ _ h1'.1 h1'.2.1 h1'.2.2, ← e, h] at h'
  simp only [Res.ok.injEq, List.cons.injEq] at h'
  exact h'

/-- The first item of a text, by its first character. -/
inductive First : List Item → List Nat → Prop
  | word {c s l rest} : (isAlpha c = true ∨ c = 95) → IsWord (c :: s) → C47.EndsWord rest → Text l rest →
      First (.word (c :: s) :: l) (c :: s ++ rest)
  | int {c s l rest} : isDigit c = true → C47.IsNumber (c :: s) → EndsNumber rest → Text l rest →
      (∀ w l' f, l = .word w :: l' → ¬ Unit' w f) → First (.int (C47.value (c :: s) % 18446744073709551616) :: l) (c :: s ++ rest)
  | unit {c s g' w f l rest} : isDigit c = true → C47.IsNumber (c :: s) → EndsNumber (g' ++ w ++ rest) → Gap g' → IsWord w →
      Unit' w f → C47.EndsWord rest → Text l rest →
      First (.int (C47.value (c :: s) * f % 18446744073709551616) :: l) (c :: s ++ (g' ++ w ++ rest))
  | string {q s l rest} : (q = 34 ∨ q = 39) → Body q s → Text l rest → First (.string s :: l) (q :: s ++ q :: rest)
  | symbol {c l rest} : IsSymbol c → Text l rest → First (.symbol c :: l) (c :: rest)

theorem text_first {a : Item} {l : List Item} {t : List Nat} (h : Text (a :: l) t) :
    ∃ g c r, t = g ++ c :: r ∧ Gap g ∧ (c < 128 ∧ isSpace c = false ∧ c ≠ 35) ∧ First (a :: l) (c :: r) := by
  cases h with
  | word hg hs hr hl =>
    rename_i g s rest
    cases s with
    | nil => exact hs.elim
    | cons c s =>
      obtain ⟨h1, h2, h3, _⟩ := alpha_char hs.1
      exact ⟨g, c, s ++ rest, by simp, hg, ⟨h1, h2, h3⟩, .word hs.1 hs hr hl⟩
  | int hg hs hr hl hn =>
    rename_i g s rest
    cases s with
    | nil => exact absurd rfl hs.1
    | cons c s =>
      have hc : isDigit c = true := by have := hs.2 c (by simp); simpa [isDigit] using this
      obtain ⟨h1, h2, h3, _⟩ := digit_char hc
      exact ⟨g, c, s ++ rest, by simp, hg, ⟨h1, h2, h3⟩, .int hc hs hr hl hn⟩
  | unit hg hs he hg' hw hu hr hl =>
    rename_i g s g' w f rest
    cases s with
    | nil => exact absurd rfl hs.1
    | cons c s =>
      have hc : isDigit c = true := by have := hs.2 c (by simp); simpa [isDigit] using this
      obtain ⟨h1, h2, h3, _⟩ := digit_char hc
      exact ⟨g, c, s ++ (g' ++ w ++ rest), by simp, hg, ⟨h1, h2, h3⟩, .unit hc hs he hg' hw hu hr hl⟩
  | string hg hq hs hl =>
    rename_i g q s rest
    refine ⟨g, q, s ++ q :: rest, by simp, hg, ?_, .string hq hs hl⟩
    rcases hq with rfl | rfl <;> decide
  | symbol hg hc hl =>
    rename_i g c rest
    exact ⟨g, c, rest, rfl, hg, ⟨(isPunct_char hc.1).1, (isPunct_char hc.1).2, hc.2.2.2.2⟩, .symbol hc hl⟩

theorem number_unique {s s' rest rest' : List Nat} (hs : C47.IsNumber s) (hs' : C47.IsNumber s') (hr : EndsNumber rest)
    (hr' : EndsNumber rest') (e : s ++ rest = s' ++ rest') : s = s' ∧ rest = rest' := by
  have h := C47.number_run s rest hs.2 hr 0 (by omega)
  have h' := C47.number_run s' rest' hs'.2 hr' 0 (by omega)
  rw [e, h'] at h
  simp only [Res.ok.injEq, Option.some.injEq, Prod.mk.injEq] at h
  have : rest = rest' := h.2.symm
  subst this
  exact ⟨List.append_cancel_right e, rfl⟩

theorem word_unique {s s' rest rest' : List Nat} (hs : IsWord s) (hs' : IsWord s') (hr : C47.EndsWord rest)
    (hr' : C47.EndsWord rest') (e : s ++ rest = s' ++ rest') : s = s' ∧ rest = rest' := by
  have all : ∀ {s}, IsWord s → ∀ d ∈ s, isAlpha d = true ∨ isDigit d = true ∨ d = 95 ∨ d = 46 ∨ d = 36 := by
    intro s hs d hd
    cases s with
    | nil => exact hs.elim
    | cons c s =>
      rcases List.mem_cons.1 hd with rfl | hd
      · rcases hs.1 with h | h
        · exact Or.inl h
        · exact Or.inr (Or.inr (Or.inl h))
      · exact hs.2 d hd
  have h := nameChars_complete hr (all hs)
  have h' := nameChars_complete hr' (all hs')
  rw [e, h'] at h
  simp only [Res.ok.injEq, Prod.mk.injEq] at h
  exact ⟨h.1.symm, h.2.symm⟩

theorem string_unique {q : Nat} {s s' rest rest' : List Nat} (hq : q = 34 ∨ q = 39) (hs : Body q s) (hs' : Body q s')
    (e : s ++ q :: rest = s' ++ q :: rest') : s = s' ∧ rest = rest' := by
  have h := stringChars_complete hq hs false [] rest
  have h' := stringChars_complete hq hs' false [] rest'
  rw [e, h'] at h
  simp only [Res.ok.injEq, Prod.mk.injEq, List.nil_append] at h
  exact ⟨h.1.symm, h.2.2.symm⟩

theorem tail_first {g : List Nat} {c : Nat} {r : List Nat} (h : Tail (g ++ c :: r)) (hg : Gap g)
    (h1 : c < 128 ∧ isSpace c = false ∧ c ≠ 35) : False := by
  have h2 := skip_gap hg (c :: r)
  rw [skip_tail h, C47.skip_stop _ _ h1.1 h1.2.1 h1.2.2] at h2
  simp at h2

theorem unit_unique {w : List Nat} {f f' : Nat} (h : Unit' w f) (h' : Unit' w f') : f = f' := by
  obtain ⟨u, hu, rfl⟩ := unit_iff.1 h
  obtain ⟨u', hu', rfl⟩ := unit_iff.1 h'
  rw [hu] at hu'
  simp only [Option.some.injEq, Kw.unit.injEq] at hu'
  rw [hu']

theorem text_unique : ∀ (n : Nat) (l l' : List Item) (t : List Nat), t.length ≤ n → Text l t → Text l' t → l = l'
  | n, [], [], _, _, _, _ => rfl
  | n, [], a :: l', t, _, h, h' => by
    obtain ⟨g, c, r, rfl, hg, hc, _⟩ := text_first h'
    cases h with
    | nil h => exact (tail_first h hg hc).elim
  | n, a :: l, [], t, _, h, h' => by
    obtain ⟨g, c, r, rfl, hg, hc, _⟩ := text_first h
    cases h' with
    | nil h => exact (tail_first h hg hc).elim
  | n, a :: l, b :: l', t, hn, h, h' => by
    obtain ⟨g, c, r, rfl, hg, hc, hf⟩ := text_first h
    obtain ⟨g', c', r', e, hg', hc', hf'⟩ := text_first h'
    obtain ⟨rfl, rfl⟩ := gap_unique hg hg' hc hc' e
    simp only [List.length_append, List.length_cons] at hn
    obtain ⟨n, rfl⟩ : ∃ k, n = k + 1 := ⟨n - 1, by omega⟩
    have alpha_digit : (isAlpha c = true ∨ c = 95) → isDigit c = true → False := fun h1 h2 => by
      have := (alpha_char h1).2.2.2.1
      rw [h2] at this
      simp at this
    generalize eA : a :: l = A at hf
    generalize eB : b :: l' = B at hf'
    generalize eT : c :: r = T at hf
    generalize eT' : c :: r = T' at hf'
    cases hf with
    | word ha hs hr hl =>
      cases hf' with
      | word ha' hs' hr' hl' =>
        rename_i d s l1 rest d' s' l2 rest'
        have e3 := eT.symm.trans eT'
        obtain ⟨e4, rfl⟩ := word_unique hs hs' hr hr' e3
        rw [e4, text_unique n l1 l2 rest (by have := congrArg List.length eT; simp at this; omega) hl hl']
      | int hd =>
        rw [List.cons_append, List.cons.injEq] at eT eT'
        exact (alpha_digit (eT.1 ▸ ha) (eT'.1 ▸ hd)).elim
      | unit hd =>
        rw [List.cons_append, List.cons.injEq] at eT eT'
        exact (alpha_digit (eT.1 ▸ ha) (eT'.1 ▸ hd)).elim
      | string hq =>
        rw [List.cons_append, List.cons.injEq] at eT eT'
        rw [← eT'.1, eT.1] at hq
        rcases hq with hq | hq <;> subst hq <;> simp [isAlpha] at ha
      | symbol hs' =>
        rw [List.cons_append, List.cons.injEq] at eT
        rw [List.cons.injEq] at eT'
        rw [← eT'.1] at hs'
        rw [← eT.1] at ha
        exact ((alpha_char ha).2.2.2.2 ⟨hs'.2.1, hs'.2.2.1, hs'.2.2.2.1, hs'.1⟩).elim
    | int hd hs hr hl hn1 =>
      rename_i d s l1 rest
      cases hf' with
      | word ha' =>
        rw [List.cons_append, List.cons.injEq] at eT eT'
        exact (alpha_digit (eT'.1 ▸ ha') (eT.1 ▸ hd)).elim
      | int hd' hs' hr' hl' hn2 =>
        rename_i d' s' l2 rest'
        obtain ⟨e4, rfl⟩ := number_unique hs hs' hr hr' (eT.symm.trans eT')
        rw [e4, text_unique n l1 l2 rest (by have := congrArg List.length eT; simp at this; omega) hl hl']
      | unit hd' hs' he' hg1 hw hu hr' hl' =>
        rename_i d' s' g1 w f l2 rest'
        obtain ⟨e4, rfl⟩ := number_unique hs hs' hr he' (eT.symm.trans eT')
        have := text_unique n l1 (.word w :: l2) _ (by have := congrArg List.length eT; simp at this ⊢; omega) hl (.word hg1 hw hr' hl')
        exact absurd hu (hn1 w l2 f this)
      | string hq =>
        rw [List.cons_append, List.cons.injEq] at eT eT'
        rw [← eT'.1, eT.1] at hq
        rcases hq with hq | hq <;> subst hq <;> simp [isDigit] at hd
      | symbol hs' =>
        rw [List.cons_append, List.cons.injEq] at eT
        rw [List.cons.injEq] at eT'
        rw [← eT'.1] at hs'
        rw [← eT.1] at hd
        exact ((digit_char hd).2.2.2 ⟨hs'.2.1, hs'.2.2.1, hs'.2.2.2.1, hs'.1⟩).elim
    | unit hd hs he hg1 hw hu hr hl =>
      rename_i d s g1 w f l1 rest
      cases hf' with
      | word ha' =>
        rw [List.cons_append, List.cons.injEq] at eT eT'
        exact (alpha_digit (eT'.1 ▸ ha') (eT.1 ▸ hd)).elim
      | int hd' hs' hr' hl' hn2 =>
        rename_i d' s' l2 rest'
        obtain ⟨e4, rfl⟩ := number_unique hs hs' he hr' (eT.symm.trans eT')
        have := text_unique n (.word w :: l1) l2 _ (by have := congrArg List.length eT; simp at this ⊢; omega) (.word hg1 hw hr hl) hl'
        exact absurd hu (hn2 w l1 f this.symm)
      | unit hd' hs' he' hg2 hw' hu' hr' hl' =>
        rename_i d' s' g2 w' f' l2 rest'
        obtain ⟨e4, e5⟩ := number_unique hs hs' he he' (eT.symm.trans eT')
        have := text_unique n (.word w :: l1) (.word w' :: l2) (g1 ++ w ++ rest)
          (by have := congrArg List.length eT; simp at this ⊢; omega) (.word hg1 hw hr hl) (e5 ▸ .word hg2 hw' hr' hl')
        simp only [List.cons.injEq, Item.word.injEq] at this
        obtain ⟨rfl, rfl⟩ := this
        rw [e4, unit_unique hu hu']
      | string hq =>
        rw [List.cons_append, List.cons.injEq] at eT eT'
        rw [← eT'.1, eT.1] at hq
        rcases hq with hq | hq <;> subst hq <;> simp [isDigit] at hd
      | symbol hs' =>
        rw [List.cons_append, List.cons.injEq] at eT
        rw [List.cons.injEq] at eT'
        rw [← eT'.1] at hs'
        rw [← eT.1] at hd
        exact ((digit_char hd).2.2.2 ⟨hs'.2.1, hs'.2.2.1, hs'.2.2.2.1, hs'.1⟩).elim
    | string hq hs hl =>
      rename_i q s l1 rest
      rw [List.cons_append, List.cons.injEq] at eT
      cases hf' with
      | word ha' =>
        rw [List.cons_append, List.cons.injEq] at eT'
        rw [← eT.1, eT'.1] at hq
        rcases hq with hq | hq <;> subst hq <;> simp [isAlpha] at ha'
      | int hd' =>
        rw [List.cons_append, List.cons.injEq] at eT'
        rw [← eT.1, eT'.1] at hq
        rcases hq with hq | hq <;> subst hq <;> simp [isDigit] at hd'
      | unit hd' =>
        rw [List.cons_append, List.cons.injEq] at eT'
        rw [← eT.1, eT'.1] at hq
        rcases hq with hq | hq <;> subst hq <;> simp [isDigit] at hd'
      | string hq' hs' hl' =>
        rename_i q' s' l2 rest'
        rw [List.cons_append, List.cons.injEq] at eT'
        obtain ⟨e1, e2⟩ := eT
        obtain ⟨e3, e4⟩ := eT'
        have eq : q = q' := e1.symm.trans e3
        subst eq
        obtain ⟨rfl, rfl⟩ := string_unique hq hs hs' (e2.symm.trans e4)
        rw [text_unique n l1 l2 rest (by have := congrArg List.length e2; simp at this; omega) hl hl']
      | symbol hs' =>
        rw [List.cons.injEq] at eT'
        rw [← eT'.1, eT.1] at hs'
        rcases hq with hq | hq
        · exact absurd hq hs'.2.1
        · exact absurd hq hs'.2.2.1
    | symbol hs hl =>
      rename_i d l1
      rw [List.cons.injEq] at eT
      cases hf' with
      | word ha' =>
        rw [List.cons_append, List.cons.injEq] at eT'
        rw [← eT'.1] at ha'
        rw [← eT.1] at hs
        exact ((alpha_char ha').2.2.2.2 ⟨hs.2.1, hs.2.2.1, hs.2.2.2.1, hs.1⟩).elim
      | int hd' =>
        rw [List.cons_append, List.cons.injEq] at eT'
        rw [← eT'.1] at hd'
        rw [← eT.1] at hs
        exact ((digit_char hd').2.2.2 ⟨hs.2.1, hs.2.2.1, hs.2.2.2.1, hs.1⟩).elim
      | unit hd' =>
        rw [List.cons_append, List.cons.injEq] at eT'
        rw [← eT'.1] at hd'
        rw [← eT.1] at hs
        exact ((digit_char hd').2.2.2 ⟨hs.2.1, hs.2.2.1, hs.2.2.2.1, hs.1⟩).elim
      | string hq =>
        rw [List.cons_append, List.cons.injEq] at eT'
        rw [← eT.1, eT'.1] at hs
        rcases hq with hq | hq
        · exact absurd hq hs.2.1
        · exact absurd hq hs.2.2.1
      | symbol hs' hl' =>
        rename_i l2
        rw [List.cons.injEq] at eT'
        obtain ⟨e1, e2⟩ := eT
        obtain ⟨e3, e4⟩ := eT'
        subst e2
        subst e4
        rw [← e1, ← e3, text_unique n _ _ r (by omega) hl hl']

end Verif.C58
