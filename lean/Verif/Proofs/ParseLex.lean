import Verif.Proofs.ParseWords
import Verif.Proofs.Lex

/-! The tokenizer against the texts of C58, one token at a time. -/
namespace Verif.C58
open Lex Parse

/-! ### Gaps -/

theorem skip_comment {t r : List Nat} (h : ∀ c ∈ t, c ≠ 10) : skip true (t ++ 10 :: r) = skip false r := by
  induction t with
  | nil => rfl
  | cons c t ih =>
    have hc : c ≠ 10 := h c (by simp)
    rw [List.cons_append, skip]
    rw [show (c != 10) = true by simp [hc]]
    exact ih fun d hd => h d (by simp [hd])

theorem skip_comment_end {t : List Nat} (h : ∀ c ∈ t, c ≠ 10) : skip true t = .ok [] := by
  induction t with
  | nil => rfl
  | cons c t ih =>
    have hc : c ≠ 10 := h c (by simp)
    rw [skip, show (c != 10) = true by simp [hc]]
    exact ih fun d hd => h d (by simp [hd])

theorem skip_gap {g : List Nat} (h : Gap g) (r : List Nat) : skip false (g ++ r) = skip false r := by
  induction h with
  | nil => rfl
  | space hc _ ih =>
    rename_i c g _
    rw [List.cons_append, skip, if_neg (by omega), if_pos (by simp [isSpace]; omega), ih]
  | comment ht _ ih =>
    rename_i t g _
    have e : 35 :: t ++ 10 :: g ++ r = 35 :: (t ++ 10 :: (g ++ r)) := by simp
    rw [e, skip, if_neg (by omega), if_neg (by decide), if_pos rfl, skip_comment ht, ih]

theorem skip_tail {g : List Nat} (h : Tail g) : skip false g = .ok [] := by
  cases h with
  | gap h =>
    have := skip_gap h []
    rw [List.append_nil] at this
    rw [this]; rfl
  | comment h ht =>
    rw [skip_gap h, skip, if_neg (by omega), if_neg (by decide), if_pos rfl, skip_comment_end ht]

/-- What skipping leaves. -/
def Stop (r : List Nat) (g : List Nat) : Prop :=
  (r = [] ∧ Tail g) ∨ ∃ c cs, r = c :: cs ∧ Gap g ∧ c < 128 ∧ isSpace c = false ∧ c ≠ 35

theorem Stop.space {r g : List Nat} {c : Nat} (h : Stop r g) (hc : c = 32 ∨ (9 ≤ c ∧ c ≤ 13)) : Stop r (c :: g) := by
  rcases h with ⟨h1, h2⟩ | ⟨d, cs, h1, h2, h3⟩
  · refine Or.inl ⟨h1, ?_⟩
    cases h2 with
    | gap h => exact .gap (.space hc h)
    | comment h ht => exact Tail.comment (g := c :: _) (.space hc h) ht
  · exact Or.inr ⟨d, cs, h1, .space hc h2, h3⟩

theorem Stop.comment {r g t : List Nat} (h : Stop r g) (ht : ∀ c ∈ t, c ≠ 10) : Stop r (35 :: t ++ 10 :: g) := by
  rcases h with ⟨h1, h2⟩ | ⟨d, cs, h1, h2, h3⟩
  · refine Or.inl ⟨h1, ?_⟩
    cases h2 with
    | gap h => exact .gap (.comment ht h)
    | comment h ht' =>
      rename_i g' t'
      have := Tail.comment (g := 35 :: t ++ 10 :: g') (.comment ht h) ht'
      simpa using this
  · exact Or.inr ⟨d, cs, h1, .comment ht h2, h3⟩

theorem comment_split (text : List Nat) : (∀ c ∈ text, c ≠ 10) ∨ ∃ t r, text = t ++ 10 :: r ∧ ∀ c ∈ t, c ≠ 10 := by
  induction text with
  | nil => exact Or.inl (by simp)
  | cons c text ih =>
    by_cases h : c = 10
    · exact Or.inr ⟨[], text, by simp [h], by simp⟩
    · rcases ih with ih | ⟨t, r, e, ht⟩
      · exact Or.inl fun d hd => by
          rcases List.mem_cons.1 hd with rfl | hd
          · exact h
          · exact ih d hd
      · refine Or.inr ⟨c :: t, r, by rw [e]; rfl, fun d hd => ?_⟩
        rcases List.mem_cons.1 hd with rfl | hd
        · exact h
        · exact ht d hd

theorem skip_sound : ∀ (n : Nat) (text r : List Nat), text.length ≤ n → skip false text = .ok r → ∃ g, text = g ++ r ∧ Stop r g
  | _, [], r, _, h => by
    simp only [skip, Res.ok.injEq] at h
    subst h
    exact ⟨[], rfl, Or.inl ⟨rfl, .gap .nil⟩⟩
  | 0, _ :: _, _, hn, _ => by simp at hn
  | n + 1, c :: cs, r, hn, h => by
    simp only [List.length_cons] at hn
    rw [skip] at h
    by_cases h1 : c ≥ 128
    · rw [if_pos h1] at h; simp at h
    · rw [if_neg h1] at h
      by_cases h2 : isSpace c = true
      · rw [if_pos h2] at h
        obtain ⟨g, e, hs⟩ := skip_sound n cs r (by omega) h
        refine ⟨c :: g, by rw [e]; rfl, hs.space ?_⟩
        simp [isSpace] at h2
        omega
      · rw [if_neg h2] at h
        by_cases h3 : c = 35
        · rw [if_pos h3] at h
          subst h3
          rcases comment_split cs with ht | ⟨t, r', e, ht⟩
          · rw [skip_comment_end ht] at h
            simp only [Res.ok.injEq] at h
            subst h
            exact ⟨35 :: cs, by simp, Or.inl ⟨rfl, Tail.comment (g := []) .nil ht⟩⟩
          · subst e
            rw [skip_comment ht] at h
            obtain ⟨g, e, hs⟩ := skip_sound n r' r (by simp at hn; omega) h
            exact ⟨35 :: t ++ 10 :: g, by rw [e]; simp, hs.comment ht⟩
        · rw [if_neg h3] at h
          simp only [Res.ok.injEq] at h
          subst h
          exact ⟨[], rfl, Or.inr ⟨c, cs, rfl, .nil, by omega, by simpa using h2, h3⟩⟩

/-! ### Words, numbers, strings -/

theorem endsWord_nameChars {rest : List Nat} (h : C47.EndsWord rest) : nameChars rest = .ok ([], rest) := by
  cases rest with
  | nil => rfl
  | cons c r =>
    obtain ⟨h1, h2, h3, h4, h5, h6⟩ := h c r rfl
    rw [nameChars, if_neg (by omega), if_neg (by omega), if_neg (by simp [h2, h3])]

theorem isAlpha_lt {c : Nat} (h : isAlpha c = true) : c < 128 := by
  simp [isAlpha] at h; omega

theorem isDigit_lt {c : Nat} (h : isDigit c = true) : c < 128 := by
  simp [isDigit] at h; omega

theorem nameChars_complete {w rest : List Nat} (h : C47.EndsWord rest)
    (hw : ∀ d ∈ w, isAlpha d = true ∨ isDigit d = true ∨ d = 95 ∨ d = 46 ∨ d = 36) : nameChars (w ++ rest) = .ok (w, rest) := by
  induction w with
  | nil => exact endsWord_nameChars h
  | cons c w ih =>
    rw [List.cons_append, nameChars, ih fun d hd => hw d (by simp [hd])]
    by_cases hc : c = 95 ∨ c = 46 ∨ c = 36
    · rw [if_pos hc]; rfl
    · rw [if_neg hc]
      have h1 : isAlpha c = true ∨ isDigit c = true := by
        rcases hw c (by simp) with h | h | h | h | h
        · exact Or.inl h
        · exact Or.inr h
        all_goals exact absurd (by simp [h]) hc
      have h2 : c < 128 := by rcases h1 with h | h; exact isAlpha_lt h; exact isDigit_lt h
      rw [if_neg (by omega), if_pos (by simpa using h1)]
      rfl

theorem nameChars_sound : ∀ (text w rest : List Nat), nameChars text = .ok (w, rest) → text = w ++ rest ∧
    (∀ d ∈ w, isAlpha d = true ∨ isDigit d = true ∨ d = 95 ∨ d = 46 ∨ d = 36) ∧ C47.EndsWord rest
  | [], w, rest, h => by
    simp only [nameChars, Res.ok.injEq, Prod.mk.injEq] at h
    obtain ⟨rfl, rfl⟩ := h
    exact ⟨rfl, by simp, by intro c r e; simp at e⟩
  | c :: cs, w, rest, h => by
    rw [nameChars] at h
    by_cases hc : c = 95 ∨ c = 46 ∨ c = 36
    · rw [if_pos hc] at h
      obtain ⟨⟨a, b⟩, h1, h2⟩ := Res.bind_eq_ok.1 h
      simp only [Res.ok.injEq, Prod.mk.injEq] at h2
      obtain ⟨rfl, rfl⟩ := h2
      obtain ⟨e1, e2, e3⟩ := nameChars_sound cs a b h1
      refine ⟨by rw [e1]; rfl, fun d hd => ?_, e3⟩
      rcases List.mem_cons.1 hd with rfl | hd
      · exact Or.inr (Or.inr hc)
      · exact e2 d hd
    · rw [if_neg hc] at h
      by_cases h1 : c ≥ 128
      · rw [if_pos h1] at h; simp at h
      · rw [if_neg h1] at h
        by_cases h2 : (isAlpha c || isDigit c) = true
        · rw [if_pos h2] at h
          obtain ⟨⟨a, b⟩, h3, h4⟩ := Res.bind_eq_ok.1 h
          simp only [Res.ok.injEq, Prod.mk.injEq] at h4
          obtain ⟨rfl, rfl⟩ := h4
          obtain ⟨e1, e2, e3⟩ := nameChars_sound cs a b h3
          refine ⟨by rw [e1]; rfl, fun d hd => ?_, e3⟩
          rcases List.mem_cons.1 hd with rfl | hd
          · rw [Bool.or_eq_true] at h2
            rcases h2 with h | h
            · exact Or.inl h
            · exact Or.inr (Or.inl h)
          · exact e2 d hd
        · rw [if_neg h2] at h
          simp only [Res.ok.injEq, Prod.mk.injEq] at h
          obtain ⟨rfl, rfl⟩ := h
          refine ⟨rfl, by simp, ?_⟩
          intro d r e
          simp only [List.cons.injEq] at e
          obtain ⟨rfl, rfl⟩ := e
          simp only [Bool.or_eq_true, not_or, Bool.not_eq_true] at h2
          exact ⟨by omega, h2.1, h2.2, by omega, by omega, by omega⟩

theorem number_split : ∀ (text : List Nat) (n m : Nat) (rest : List Nat), Lex.number text n = .ok (some (m, rest)) →
    ∃ s, text = s ++ rest ∧ (∀ c ∈ s, 48 ≤ c ∧ c ≤ 57) ∧ EndsNumber rest
  | [], n, m, rest, h => by
    simp only [Lex.number, Res.ok.injEq, Option.some.injEq, Prod.mk.injEq] at h
    obtain ⟨_, rfl⟩ := h
    exact ⟨[], rfl, by simp, by intro c r e; simp at e⟩
  | c :: cs, n, m, rest, h => by
    rw [Lex.number] at h
    by_cases h1 : c = 46 ∨ c = 101 ∨ c = 69
    · rw [if_pos h1] at h; simp at h
    · rw [if_neg h1] at h
      by_cases h2 : c ≥ 128
      · rw [if_pos h2] at h; simp at h
      · rw [if_neg h2] at h
        by_cases h3 : isDigit c = true
        · rw [if_pos h3] at h
          obtain ⟨s, e, hs, hr⟩ := number_split cs _ m rest h
          refine ⟨c :: s, by rw [e]; rfl, fun d hd => ?_, hr⟩
          rcases List.mem_cons.1 hd with rfl | hd
          · simpa [isDigit] using h3
          · exact hs d hd
        · rw [if_neg h3] at h
          simp only [Res.ok.injEq, Option.some.injEq, Prod.mk.injEq] at h
          obtain ⟨_, rfl⟩ := h
          refine ⟨[], rfl, by simp, ?_⟩
          intro d r e
          simp only [List.cons.injEq] at e
          obtain ⟨rfl, rfl⟩ := e
          exact ⟨by omega, by simpa using h3, by omega, by omega, by omega⟩

theorem number_sound {text : List Nat} {m : Nat} {rest : List Nat} (h : Lex.number text 0 = .ok (some (m, rest))) :
    ∃ s, text = s ++ rest ∧ (∀ c ∈ s, 48 ≤ c ∧ c ≤ 57) ∧ EndsNumber rest ∧ m = C47.value s % 18446744073709551616 := by
  obtain ⟨s, e, hs, hr⟩ := number_split text 0 m rest h
  refine ⟨s, e, hs, hr, ?_⟩
  have := C47.number_run s rest hs hr 0 (by omega)
  rw [← e, h] at this
  simp only [Res.ok.injEq, Option.some.injEq, Prod.mk.injEq, and_true] at this
  exact this

/-- The rest of a string, after a backslash or not. -/
def BodyS (q : Nat) : Bool → List Nat → Prop
  | false, b => Body q b
  | true, b => ∃ c b', b = c :: b' ∧ c ≠ 10 ∧ Body q b'

theorem stringChars_sound {q : Nat} (hq : q = 34 ∨ q = 39) : ∀ (text : List Nat) (slash esc : Bool) (acc s : List Nat) (e : Bool)
    (rest : List Nat), stringChars q text slash esc acc = .ok (s, e, rest) →
    ∃ b, text = b ++ q :: rest ∧ s = acc ++ b ∧ e = (esc || b.contains 92) ∧ BodyS q slash b
  | [], _, _, _, _, _, _, h => by simp [stringChars] at h
  | c :: cs, slash, esc, acc, s, e, rest, h => by
    rw [stringChars] at h
    by_cases h1 : c = q
    · rw [if_pos h1] at h
      subst h1
      cases slash with
      | true =>
        simp only [if_true] at h
        obtain ⟨b, e1, e2, e3, e4⟩ := stringChars_sound hq cs false esc _ s e rest h
        refine ⟨c :: b, by rw [e1]; rfl, by rw [e2]; simp, ?_, c, b, rfl, by omega, e4⟩
        rw [e3, List.contains_cons, show (92 == c) = false by simp; omega, Bool.false_or]
      | false =>
        simp only [Bool.false_eq_true, if_false, Res.ok.injEq, Prod.mk.injEq] at h
        obtain ⟨rfl, rfl, rfl⟩ := h
        exact ⟨[], rfl, by simp, by simp, .nil⟩
    · rw [if_neg h1] at h
      by_cases h2 : c = 10
      · rw [if_pos h2] at h; simp at h
      · rw [if_neg h2] at h
        by_cases h3 : c = 92
        · rw [if_pos h3] at h
          subst h3
          obtain ⟨b, e1, e2, e3, e4⟩ := stringChars_sound hq cs _ true _ s e rest h
          refine ⟨92 :: b, by rw [e1]; rfl, by rw [e2]; simp, by rw [e3]; simp, ?_⟩
          cases slash with
          | true => exact ⟨92, b, rfl, by omega, e4⟩
          | false =>
            obtain ⟨d, b', rfl, hd, hb⟩ := e4
            exact .escaped hd hb
        · rw [if_neg h3] at h
          obtain ⟨b, e1, e2, e3, e4⟩ := stringChars_sound hq cs false esc _ s e rest h
          refine ⟨c :: b, by rw [e1]; rfl, by rw [e2]; simp, ?_, ?_⟩
          · rw [e3, List.contains_cons, show (92 == c) = false by simp; omega, Bool.false_or]
          · cases slash with
            | true => exact ⟨c, b, rfl, h2, e4⟩
            | false => exact .plain h1 h2 h3 e4

theorem stringChars_complete {q : Nat} (hq : q = 34 ∨ q = 39) {b : List Nat} (h : Body q b) : ∀ (esc : Bool) (acc rest : List Nat),
    stringChars q (b ++ q :: rest) false esc acc = .ok (acc ++ b, esc || b.contains 92, rest) := by
  induction h with
  | nil => intro esc acc rest; rw [List.nil_append, stringChars, if_pos rfl]; simp
  | plain h1 h2 h3 _ ih =>
    rename_i c s _
    intro esc acc rest
    rw [List.cons_append, stringChars, if_neg h1, if_neg h2, if_neg h3, ih]
    rw [List.contains_cons, show (92 == c) = false by simp; omega, Bool.false_or]
    simp
  | escaped h1 _ ih =>
    rename_i c s _
    intro esc acc rest
    rw [List.cons_append, stringChars, if_neg (by omega), if_neg (by omega), if_pos rfl, List.cons_append, stringChars]
    simp only [Bool.not_false, if_true]
    by_cases hc : c = q
    · rw [if_pos hc, ih]; simp
    · rw [if_neg hc, if_neg h1]
      by_cases h92 : c = 92
      · rw [if_pos h92, Bool.not_true, ih]; simp [h92]
      · rw [if_neg h92, ih]; simp

end Verif.C58
