import Verif.Proofs.ParseLex

/-! One call of the tokenizer against the texts of C58. -/
namespace Verif.C58
open Lex Parse

/-- The token of an item, with and without keywords. -/
def tokenK : Bool → Item → Token
  | false, .word s => .name s
  | _, a => token a

theorem tokenK_true (a : Item) : tokenK true a = token a := by cases a <;> rfl

/-! ### Forwards -/

theorem nextF_start {fuel : Nat} {l : Lex} {g r : List Nat} {c : Nat} {cs : List Nat} (hb : l.backlog = []) (ht : l.text = g ++ r)
    (hg : Gap g) (hr : r = c :: cs) (h1 : c < 128) (h2 : isSpace c = false) (h3 : c ≠ 35) :
    nextF (fuel + 1) l =
      if c ≠ 34 ∧ c ≠ 39 ∧ c ≠ 95 ∧ isPunct c = true then
        .ok (.symbol c, { l with text := cs })
      else if isDigit c then
        (Lex.number (c :: cs) 0).bind fun
          | none => .err "not modelled: strtod"
          | some (n, rest) =>
            (nextF fuel { l with text := rest }).bind fun (t, l) =>
            match t with
            | .keyword (.unit u) _ => .ok (.int (wrapU64 (n * factor u)), l)
            | t => (push l t).bind fun l => .ok (.int n, l)
      else if isAlpha c || c == 95 then
        (nameChars (c :: cs)).bind fun (s, rest) =>
        if !l.keywords then .ok (.name s, { l with text := rest })
        else match findKeyword s with
          | some k => .ok (.keyword k s, { l with text := rest })
          | none => .ok (.name s, { l with text := rest })
      else if c = 34 ∨ c = 39 then
        (stringChars c cs false false []).bind fun (s, esc, rest) =>
        .ok (.string s esc, { l with text := rest })
      else .err "bad token" := by
  rw [nextF, hb]
  dsimp only
  rw [ht, skip_gap hg, hr, C47.skip_stop c cs h1 h2 h3]
  rfl

theorem nextF_eof {fuel : Nat} {l : Lex} (hb : l.backlog = []) (ht : Tail l.text) :
    nextF (fuel + 1) l = .ok (.eof, { l with text := [] }) := by
  rw [nextF, hb]
  dsimp only
  rw [skip_tail ht]
  rfl

theorem isPunct_char {c : Nat} (h : isPunct c = true) : c < 128 ∧ isSpace c = false := by
  simp [isPunct] at h
  simp [isSpace]
  omega

theorem alpha_char {c : Nat} (h : isAlpha c = true ∨ c = 95) :
    c < 128 ∧ isSpace c = false ∧ c ≠ 35 ∧ isDigit c = false ∧ ¬ (c ≠ 34 ∧ c ≠ 39 ∧ c ≠ 95 ∧ isPunct c = true) := by
  simp [isAlpha] at h
  simp [isSpace, isDigit, isPunct]
  omega

theorem digit_char {c : Nat} (h : isDigit c = true) :
    c < 128 ∧ isSpace c = false ∧ c ≠ 35 ∧ ¬ (c ≠ 34 ∧ c ≠ 39 ∧ c ≠ 95 ∧ isPunct c = true) := by
  simp [isDigit] at h
  simp [isSpace, isPunct]
  omega

theorem nextF_word {fuel : Nat} {l : Lex} {g s rest : List Nat} (hb : l.backlog = []) (ht : l.text = g ++ s ++ rest) (hg : Gap g)
    (hs : IsWord s) (hr : C47.EndsWord rest) :
    nextF (fuel + 1) l = .ok (tokenK l.keywords (.word s), { l with text := rest }) := by
  cases s with
  | nil => exact hs.elim
  | cons c s =>
    obtain ⟨h1, h2, h3, h4, h5⟩ := alpha_char hs.1
    have hn : nameChars (c :: (s ++ rest)) = .ok (c :: s, rest) := by
      have := nameChars_complete (w := c :: s) hr (fun d hd => by
        rcases List.mem_cons.1 hd with rfl | hd
        · rcases hs.1 with h | h
          · exact Or.inl h
          · exact Or.inr (Or.inr (Or.inl h))
        · exact hs.2 d hd)
      simpa using this
    rw [nextF_start (r := c :: (s ++ rest)) hb (by rw [ht]; simp) hg rfl h1 h2 h3, if_neg h5, h4, if_neg (by simp),
      if_pos (by simpa using hs.1), hn, Res.bind_ok]
    cases hk : l.keywords with
    | false => rfl
    | true =>
      simp only [Bool.not_true, Bool.false_eq_true, if_false, tokenK, token]
      cases findKeyword (c :: s) <;> rfl

theorem nextF_symbol {fuel : Nat} {l : Lex} {g : List Nat} {c : Nat} {rest : List Nat} (hb : l.backlog = [])
    (ht : l.text = g ++ c :: rest) (hg : Gap g) (hc : IsSymbol c) :
    nextF (fuel + 1) l = .ok (.symbol c, { l with text := rest }) := by
  obtain ⟨h1, h2, h3, h4, h5⟩ := hc
  rw [nextF_start hb ht hg rfl (isPunct_char h1).1 (isPunct_char h1).2 h5, if_pos ⟨h2, h3, h4, h1⟩]

theorem nextF_string {fuel : Nat} {l : Lex} {g s : List Nat} {q : Nat} {rest : List Nat} (hb : l.backlog = [])
    (ht : l.text = g ++ q :: s ++ q :: rest) (hg : Gap g) (hq : q = 34 ∨ q = 39) (hs : Body q s) :
    nextF (fuel + 1) l = .ok (token (.string s), { l with text := rest }) := by
  have h1 : q < 128 ∧ isSpace q = false ∧ q ≠ 35 ∧ isDigit q = false ∧ isAlpha q = false ∧ (q == 95) = false ∧
      ¬ (q ≠ 34 ∧ q ≠ 39 ∧ q ≠ 95 ∧ isPunct q = true) := by
    rcases hq with rfl | rfl <;> decide
  obtain ⟨h1, h2, h3, h4, h5, h6, h7⟩ := h1
  rw [nextF_start (r := q :: (s ++ q :: rest)) hb (by rw [ht]; simp) hg rfl h1 h2 h3, if_neg h7, h4, if_neg (by simp), h5, h6,
    if_neg (by simp), if_pos hq, stringChars_complete hq hs, Res.bind_ok]
  simp [token]

theorem nextF_int {fuel : Nat} {l : Lex} {g s rest : List Nat} (hb : l.backlog = []) (ht : l.text = g ++ s ++ rest) (hg : Gap g)
    (hs : C47.IsNumber s) (hr : EndsNumber rest) :
    nextF (fuel + 1) l = (nextF fuel { l with text := rest }).bind fun (t, l) =>
      match t with
      | .keyword (.unit u) _ => .ok (.int (wrapU64 (((C47.value s % 18446744073709551616 : Nat) : Int) * factor u)), l)
      | t => (push l t).bind fun l => .ok (.int (C47.value s % 18446744073709551616), l) := by
  obtain ⟨hne, hd⟩ := hs
  cases s with
  | nil => exact absurd rfl hne
  | cons c s =>
    have hc : isDigit c = true := by have := hd c (by simp); simpa [isDigit] using this
    obtain ⟨h1, h2, h3, h4⟩ := digit_char hc
    have hn : Lex.number (c :: (s ++ rest)) 0 = .ok (some (C47.value (c :: s) % 18446744073709551616, rest)) :=
      C47.number_run (c :: s) rest hd hr 0 (by omega)
    rw [nextF_start (r := c :: (s ++ rest)) hb (by rw [ht]; simp) hg rfl h1 h2 h3, if_neg h4, if_pos hc, hn, Res.bind_ok]

/-! ### Backwards -/

/-- What a successful call with nothing pushed has read. -/
theorem nextF_inv {fuel : Nat} {l l' : Lex} {t : Token} (hb : l.backlog = []) (h : nextF (fuel + 1) l = .ok (t, l')) :
    (t = .eof ∧ Tail l.text ∧ l' = { l with text := [] }) ∨
    (∃ a, (∀ n, a ≠ .int n) ∧ t = tokenK l.keywords a ∧ l' = { l with text := l'.text } ∧
      ∀ items, Text items l'.text → Text (a :: items) l.text) ∨
    ∃ g s rest, Gap g ∧ C47.IsNumber s ∧ EndsNumber rest ∧ l.text = g ++ s ++ rest := by
  have h0 := h
  rw [nextF, hb] at h
  dsimp only at h
  obtain ⟨r, h1, h2⟩ := Res.bind_eq_ok.1 h
  obtain ⟨g, e, hs⟩ := skip_sound _ _ _ (Nat.le_refl _) h1
  rcases hs with ⟨rfl, ht⟩ | ⟨c, cs, rfl, hg, hc1, hc2, hc3⟩
  · rw [List.append_nil] at e
    simp only [Res.ok.injEq, Prod.mk.injEq] at h2
    exact Or.inl ⟨h2.1.symm, e ▸ ht, by rw [← h2.2, hb]⟩
  · rw [nextF_start hb e hg rfl hc1 hc2 hc3] at h0
    by_cases p1 : c ≠ 34 ∧ c ≠ 39 ∧ c ≠ 95 ∧ isPunct c = true
    · rw [if_pos p1] at h0
      simp only [Res.ok.injEq, Prod.mk.injEq] at h0
      obtain ⟨rfl, rfl⟩ := h0
      refine Or.inr (Or.inl ⟨.symbol c, by simp, ?_, rfl, fun items hi => ?_⟩)
      · cases l.keywords <;> rfl
      · rw [e]
        exact .symbol hg ⟨p1.2.2.2, p1.1, p1.2.1, p1.2.2.1, hc3⟩ hi
    · rw [if_neg p1] at h0
      by_cases p2 : isDigit c = true
      · rw [if_pos p2] at h0
        obtain ⟨o, h3, h4⟩ := Res.bind_eq_ok.1 h0
        cases o with
        | none => simp at h4
        | some p =>
          obtain ⟨m, rest⟩ := p
          obtain ⟨s, e2, hs, hr, hm⟩ := number_sound h3
          refine Or.inr (Or.inr ⟨g, s, rest, hg, ⟨?_, hs⟩, hr, by rw [e, e2]; simp⟩)
          intro e3
          subst e3
          rw [List.nil_append] at e2
          have := (hr c cs e2.symm).2.1
          rw [p2] at this
          simp at this
      · rw [if_neg p2] at h0
        by_cases p3 : (isAlpha c || c == 95) = true
        · rw [if_pos p3] at h0
          obtain ⟨⟨s, rest⟩, h3, h4⟩ := Res.bind_eq_ok.1 h0
          obtain ⟨e2, hs, hr⟩ := nameChars_sound _ _ _ h3
          have hw : IsWord s := by
            cases s with
            | nil =>
              rw [List.nil_append] at e2
              obtain ⟨_, q1, _, q2, _⟩ := hr c cs e2.symm
              simp [q1, q2] at p3
            | cons d s =>
              rw [List.cons_append, List.cons.injEq] at e2
              refine ⟨?_, fun x hx => hs x (by simp [hx])⟩
              rw [← e2.1]
              simpa using p3
          have ht : ∀ items, Text items rest → Text (.word s :: items) l.text := by
            intro items hi
            rw [e, e2, ← List.append_assoc]
            exact .word hg hw hr hi
          have h4' : (t, l') = (tokenK l.keywords (.word s), { l with text := rest }) := by
            cases hk : l.keywords with
            | false =>
              rw [hk] at h4
              simp only [Bool.not_false, if_true, Res.ok.injEq] at h4
              rw [← h4]; rfl
            | true =>
              rw [hk] at h4
              simp only [Bool.not_true, Bool.false_eq_true, if_false] at h4
              simp only [tokenK, token]
              cases hf : findKeyword s with
              | none => rw [hf] at h4; simp only [Res.ok.injEq] at h4; rw [← h4]
              | some k => rw [hf] at h4; simp only [Res.ok.injEq] at h4; rw [← h4]
          simp only [Prod.mk.injEq] at h4'
          obtain ⟨rfl, rfl⟩ := h4'
          exact Or.inr (Or.inl ⟨.word s, by simp, rfl, rfl, ht⟩)
        · rw [if_neg p3] at h0
          by_cases p4 : c = 34 ∨ c = 39
          · rw [if_pos p4] at h0
            obtain ⟨⟨s, esc, rest⟩, h3, h4⟩ := Res.bind_eq_ok.1 h0
            obtain ⟨b, e2, e3, e4, e5⟩ := stringChars_sound p4 _ _ _ _ _ _ _ h3
            simp only [Res.ok.injEq, Prod.mk.injEq] at h4
            obtain ⟨rfl, rfl⟩ := h4
            rw [List.nil_append] at e3
            subst e3
            rw [Bool.false_or] at e4
            subst e4
            refine Or.inr (Or.inl ⟨.string s, by simp, ?_, rfl, fun items hi => ?_⟩)
            · cases l.keywords <;> rfl
            · rw [e, e2]
              have := Text.string (rest := rest) hg p4 e5 hi
              simpa using this
          · rw [if_neg p4] at h0
            simp at h0

end Verif.C58
