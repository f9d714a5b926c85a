import Verif.Proofs.ParseNext

/-! The state of the tokenizer, pushed tokens included, against the items of C58. -/
namespace Verif.C58
open Lex Parse

/-- Pushed tokens and text still to be read stand for these items. -/
inductive Back : List Token → List Nat → List Item → Prop
  | text {t l} : Text l t → Back [] t l
  | eof : Back [.eof] [] []
  | last {a t l} : Text l t → Back [token a] t (a :: l)
  | int {n b bs t l} : Back (b :: bs) t l → Back (.int n :: b :: bs) t (.int n :: l)

/-- Pushed tokens as the tokenizer leaves them: numbers, then one more token. -/
inductive Shape : List Token → List Nat → Prop
  | nil {t} : Shape [] t
  | eof : Shape [.eof] []
  | last {a t} : Shape [token a] t
  | int {n b bs t} : Shape (b :: bs) t → Shape (.int n :: b :: bs) t

def At (l : Lex) (items : List Item) : Prop := l.keywords = true ∧ Back l.backlog l.text items
def Good (l : Lex) : Prop := l.keywords = true ∧ Shape l.backlog l.text

theorem Back.shape {b t l} (h : Back b t l) : Shape b t := by
  induction h with
  | text => exact .nil
  | eof => exact .eof
  | last => exact .last
  | int _ ih => exact .int ih

theorem At.good {l items} (h : At l items) : Good l := ⟨h.1, h.2.shape⟩

/-- A token put back in front. -/
theorem Back.push {bs t a l} (h : Back bs t l) (hi : (∀ n, a ≠ .int n) → bs = []) : Back (token a :: bs) t (a :: l) := by
  cases bs with
  | nil => cases h with | text h => exact .last h
  | cons b bs =>
    have : ∃ n, a = .int n := Classical.byContradiction fun hn => by
      have := hi fun n e => hn ⟨n, e⟩
      simp at this
    obtain ⟨n, rfl⟩ := this
    exact .int h

theorem Back.pop {bs t a l} (h : Back (token a :: bs) t l) : ∃ l', l = a :: l' ∧ Back bs t l' ∧ ((∀ n, a ≠ .int n) → bs = []) := by
  generalize e : token a :: bs = ts at h
  cases h with
  | text => simp at e
  | eof =>
    rw [List.cons.injEq] at e
    exact absurd e.1 (token_ne_eof a)
  | last h =>
    rw [List.cons.injEq] at e
    have := token_inj e.1
    subst this
    rw [e.2]
    exact ⟨_, rfl, .text h, fun _ => rfl⟩
  | int h =>
    rename_i n b bs' l'
    rw [List.cons.injEq] at e
    have : a = .int n := token_inj e.1
    subst this
    rw [e.2]
    exact ⟨_, rfl, h, fun h => absurd rfl (h n)⟩

theorem Shape.push {bs t a} (h : Shape bs t) (hi : (∀ n, a ≠ .int n) → bs = []) : Shape (token a :: bs) t := by
  cases bs with
  | nil => exact .last
  | cons b bs =>
    have : ∃ n, a = .int n := Classical.byContradiction fun hn => by
      have := hi fun n e => hn ⟨n, e⟩
      simp at this
    obtain ⟨n, rfl⟩ := this
    exact .int h

/-- How many numbers come first. -/
def lead : List Item → Nat
  | .int _ :: l => lead l + 1
  | _ => 0

/-- Never more than three numbers in a row. -/
def NoRun : List Item → Prop
  | [] => True
  | a :: l => lead (a :: l) ≤ 3 ∧ NoRun l

theorem Back.length {b t l} (h : Back b t l) : b.length ≤ lead l + 1 := by
  induction h with
  | text => simp
  | eof => simp
  | last => simp
  | int _ ih => simp only [List.length_cons, lead] at *; omega

theorem lead_tail (a : Item) (l : List Item) (h : NoRun (a :: l)) : (∃ n, a = .int n) → lead l ≤ 2 := by
  rintro ⟨n, rfl⟩
  have := h.1
  simp only [lead] at this
  omega

/-! ### Reading on from the text -/

theorem wrap_value (v f : Nat) :
    wrapU64 (((v % 18446744073709551616 : Nat) : Int) * f) = v * f % 18446744073709551616 := by
  unfold wrapU64
  rw [← Int.natCast_mul]
  have : (v % 18446744073709551616 * f) % 18446744073709551616 = v * f % 18446744073709551616 := by
    rw [Nat.mul_mod, Nat.mod_mod, ← Nat.mul_mod]
  omega

theorem unit_token {a : Item} {u : LUnit} {s : List Nat} : token a = .keyword (.unit u) s ↔ a = .word s ∧ findKeyword s = some (.unit u) := by
  cases a with
  | word w =>
    simp only [token]
    cases hf : findKeyword w with
    | none => simp only [reduceCtorEq, Item.word.injEq, false_iff, not_and]; rintro rfl; rw [hf]; simp
    | some k =>
      simp only [Token.keyword.injEq, Item.word.injEq]
      constructor
      · rintro ⟨rfl, rfl⟩; exact ⟨rfl, hf⟩
      · rintro ⟨rfl, e⟩; rw [hf] at e; simpa using e
  | _ => simp [token]

theorem text_length {items t} (h : Text items t) : items.length ≤ t.length := by
  induction h with
  | nil => simp
  | word _ hs _ _ ih =>
    have : ∀ s, IsWord s → 0 < s.length := by
      intro s hs
      cases s with
      | nil => exact hs.elim
      | cons => simp
    have := this _ hs
    simp only [List.length_cons, List.length_append]; omega
  | int _ hs _ _ _ ih =>
    have := List.length_pos_iff.2 hs.1
    simp only [List.length_cons, List.length_append]; omega
  | unit _ hs _ _ _ _ _ _ ih =>
    have := List.length_pos_iff.2 hs.1
    simp only [List.length_cons, List.length_append]; omega
  | string _ _ _ _ ih => simp only [List.length_cons, List.length_append]; omega
  | symbol _ _ _ ih => simp only [List.length_cons, List.length_append]; omega

theorem nextF_complete : ∀ (items : List Item) (t : List Nat), Text items t → NoRun items → ∀ fuel, t.length < fuel →
    (items = [] ∧ nextF fuel ⟨t, true, []⟩ = .ok (.eof, ⟨[], true, []⟩)) ∨
    ∃ a l bs t', items = a :: l ∧ nextF fuel ⟨t, true, []⟩ = .ok (token a, ⟨t', true, bs⟩) ∧ Back bs t' l ∧
      ((∀ n, a ≠ .int n) → bs = []) := by
  intro items t h
  induction h with
  | nil ht =>
    intro _ fuel hf
    obtain ⟨fuel, rfl⟩ : ∃ k, fuel = k + 1 := ⟨fuel - 1, by omega⟩
    exact Or.inl ⟨rfl, nextF_eof rfl ht⟩
  | word hg hs hr hl ih =>
    intro _ fuel hf
    obtain ⟨fuel, rfl⟩ : ∃ k, fuel = k + 1 := ⟨fuel - 1, by omega⟩
    exact Or.inr ⟨_, _, [], _, rfl, nextF_word rfl rfl hg hs hr, .text hl, fun _ => rfl⟩
  | string hg hq hs hl ih =>
    intro _ fuel hf
    obtain ⟨fuel, rfl⟩ : ∃ k, fuel = k + 1 := ⟨fuel - 1, by omega⟩
    exact Or.inr ⟨_, _, [], _, rfl, nextF_string rfl rfl hg hq hs, .text hl, fun _ => rfl⟩
  | symbol hg hc hl ih =>
    intro _ fuel hf
    obtain ⟨fuel, rfl⟩ : ∃ k, fuel = k + 1 := ⟨fuel - 1, by omega⟩
    exact Or.inr ⟨_, _, [], _, rfl, nextF_symbol rfl rfl hg hc, .text hl, fun _ => rfl⟩
  | unit hg hs he hg' hw hu hr hl ih =>
    rename_i g s g' w f l rest
    intro _ fuel hf
    obtain ⟨fuel, rfl⟩ : ∃ k, fuel = k + 1 := ⟨fuel - 1, by omega⟩
    have hlen := List.length_pos_iff.2 hs.1
    simp only [List.length_append] at hf
    obtain ⟨fuel, rfl⟩ : ∃ k, fuel = k + 1 := ⟨fuel - 1, by omega⟩
    obtain ⟨u, hk, rfl⟩ := unit_iff.1 hu
    refine Or.inr ⟨_, _, [], rest, rfl, ?_, .text hl, fun _ => rfl⟩
    rw [nextF_int rfl rfl hg hs he, nextF_word rfl rfl hg' hw hr, Res.bind_ok]
    simp only [tokenK, token, hk]
    rw [wrap_value]
  | int hg hs he hl hn ih =>
    rename_i g s l rest
    intro hr fuel hf
    obtain ⟨fuel, rfl⟩ : ∃ k, fuel = k + 1 := ⟨fuel - 1, by omega⟩
    have hlen := List.length_pos_iff.2 hs.1
    simp only [List.length_append] at hf
    have hlead := lead_tail _ _ hr ⟨_, rfl⟩
    rcases ih hr.2 fuel (by omega) with ⟨rfl, e⟩ | ⟨b, l', bs, t', rfl, e, hb, hi⟩
    · refine Or.inr ⟨_, _, [.eof], [], rfl, ?_, .eof, fun h => absurd rfl (h _)⟩
      rw [nextF_int rfl rfl hg hs he, e, Res.bind_ok]
      rfl
    · refine Or.inr ⟨_, _, token b :: bs, t', rfl, ?_, hb.push hi, fun h => absurd rfl (h _)⟩
      have hlen : bs.length < 4 := by
        have := (hb.push hi).length
        simp only [List.length_cons] at this
        omega
      rw [nextF_int rfl rfl hg hs he, e, Res.bind_ok]
      have hp : push ⟨t', true, bs⟩ (token b) = .ok ⟨t', true, token b :: bs⟩ := by rw [push, if_pos hlen]
      dsimp only
      split
      · rename_i u w e2
        obtain ⟨rfl, hk⟩ := unit_token.1 e2
        exact absurd (unit_iff.2 ⟨u, hk, rfl⟩) (hn w l' _ rfl)
      · rw [hp]; rfl

theorem next_complete {l : Lex} {items : List Item} (h : At l items) (hr : NoRun items) :
    (items = [] ∧ next l = .ok (.eof, ⟨[], true, []⟩)) ∨
    ∃ a items' l', items = a :: items' ∧ next l = .ok (token a, l') ∧ At l' items' ∧ ((∀ n, a ≠ .int n) → l'.backlog = []) := by
  obtain ⟨t, k, bs⟩ := l
  obtain ⟨rfl, hb⟩ := h
  dsimp only at hb
  cases hb with
  | text h =>
    rcases nextF_complete items t h hr _ (Nat.lt_succ_self _) with ⟨rfl, e⟩ | ⟨a, l, bs, t', rfl, e, hb, hi⟩
    · exact Or.inl ⟨rfl, e⟩
    · exact Or.inr ⟨a, l, _, rfl, e, ⟨rfl, hb⟩, hi⟩
  | eof => exact Or.inl ⟨rfl, rfl⟩
  | last h => exact Or.inr ⟨_, _, _, rfl, rfl, ⟨rfl, .text h⟩, fun _ => rfl⟩
  | int h => exact Or.inr ⟨_, _, _, rfl, rfl, ⟨rfl, h⟩, fun h => absurd rfl (h _)⟩

theorem text_word_inv {w l t} (h : Text (.word w :: l) t) :
    ∃ g rest, t = g ++ w ++ rest ∧ Gap g ∧ IsWord w ∧ C47.EndsWord rest ∧ Text l rest := by
  cases h with
  | word h1 h2 h3 h4 => exact ⟨_, _, rfl, h1, h2, h3, h4⟩

theorem nextF_sound : ∀ (fuel : Nat) (t : List Nat) (l' : Lex) (k : Token), nextF fuel ⟨t, true, []⟩ = .ok (k, l') →
    (k = .eof ∧ l' = ⟨[], true, []⟩ ∧ Text [] t) ∨
    ∃ a, k = token a ∧ Good l' ∧ ((∀ n, a ≠ .int n) → l'.backlog = []) ∧ ∀ items, At l' items → Text (a :: items) t
  | 0, _, _, _, h => by simp [nextF] at h
  | fuel + 1, t, l', k, h => by
    rcases nextF_inv (l := ⟨t, true, []⟩) rfl h with ⟨rfl, ht, rfl⟩ | ⟨a, ha, rfl, e, ht⟩ | ⟨g, s, rest, hg, hs, hr, e⟩
    · exact Or.inl ⟨rfl, rfl, .nil ht⟩
    · obtain ⟨t', kw', bs'⟩ := l'
      simp only [Lex.mk.injEq, true_and] at e
      obtain ⟨rfl, rfl⟩ := e
      refine Or.inr ⟨a, tokenK_true a, ⟨rfl, .nil⟩, fun _ => rfl, fun items hi => ?_⟩
      obtain ⟨_, hb⟩ := hi
      cases hb with
      | text h => exact ht _ h
    · rw [nextF_int rfl e hg hs hr] at h
      obtain ⟨⟨k1, l1⟩, h1, h2⟩ := Res.bind_eq_ok.1 h
      dsimp only at h2 e
      subst e
      have push_eq : ∀ {l : Lex} {x : Token} {r : Token × Lex}, (push l x).bind
          (fun l => Res.ok (Token.int (C47.value s % 18446744073709551616), l)) = .ok r →
          r = (.int (C47.value s % 18446744073709551616), { l with backlog := x :: l.backlog }) := by
        intro l x r hp
        unfold push at hp
        by_cases hlen : l.backlog.length < 4
        · rw [if_pos hlen] at hp
          simp only [Res.bind_ok, Res.ok.injEq] at hp
          exact hp.symm
        · rw [if_neg hlen] at hp; simp at hp
      rcases nextF_sound fuel rest l1 k1 h1 with ⟨rfl, rfl, ht⟩ | ⟨b, rfl, hgood, hi, ht⟩
      · dsimp only at h2
        have := push_eq h2
        simp only [Prod.mk.injEq] at this
        obtain ⟨rfl, rfl⟩ := this
        refine Or.inr ⟨.int _, rfl, ⟨rfl, .eof⟩, fun h => absurd rfl (h _), fun items hit => ?_⟩
        obtain ⟨_, hb⟩ := hit
        have : items = [] := by
          generalize e : ([Token.eof] : List Token) = ts at hb
          dsimp only at hb
          cases hb with
          | text => simp at e
          | eof => rfl
          | last => rw [List.cons.injEq] at e; exact absurd e.1.symm (token_ne_eof _)
          | int => simp at e
        subst this
        exact .int hg hs hr ht (by simp)
      · by_cases hu : ∃ u w, token b = .keyword (.unit u) w
        · obtain ⟨u, w, hu⟩ := hu
          rw [hu] at h2
          simp only [Res.ok.injEq, Prod.mk.injEq] at h2
          obtain ⟨rfl, rfl⟩ := h2
          obtain ⟨rfl, hk⟩ := unit_token.1 hu
          refine Or.inr ⟨.int (C47.value s * factor u % 18446744073709551616), by rw [wrap_value]; rfl, hgood,
            fun h => absurd rfl (h _), fun items hit => ?_⟩
          obtain ⟨g', rest', rfl, hg', hw, hr', hl⟩ := text_word_inv (ht items hit)
          exact .unit hg hs hr hg' hw (unit_iff.2 ⟨u, hk, rfl⟩) hr' hl
        · have h3 : (push l1 (token b)).bind (fun l => Res.ok (Token.int (C47.value s % 18446744073709551616), l)) = .ok (k, l') := by
            revert h2 hu
            generalize token b = tb
            intro h2 hu
            split at h2
            · exact absurd ⟨_, _, rfl⟩ hu
            · exact h2
          have := push_eq h3
          simp only [Prod.mk.injEq] at this
          obtain ⟨rfl, rfl⟩ := this
          refine Or.inr ⟨.int _, rfl, ⟨hgood.1, hgood.2.push hi⟩, fun h => absurd rfl (h _), fun items hit => ?_⟩
          obtain ⟨_, hb⟩ := hit
          obtain ⟨l2, rfl, hb2, _⟩ := hb.pop
          refine .int hg hs hr (ht l2 ⟨hgood.1, hb2⟩) ?_
          intro w l3 f e hf
          rw [List.cons.injEq] at e
          obtain ⟨u, hk, _⟩ := unit_iff.1 hf
          exact hu ⟨u, w, unit_token.2 ⟨e.1, hk⟩⟩

theorem next_sound {l l' : Lex} {k : Token} (hl : Good l) (h : next l = .ok (k, l')) :
    (k = .eof ∧ l' = ⟨[], true, []⟩ ∧ At l []) ∨
    ∃ a, k = token a ∧ Good l' ∧ ((∀ n, a ≠ .int n) → l'.backlog = []) ∧ ∀ items, At l' items → At l (a :: items) := by
  obtain ⟨t, kw, bs⟩ := l
  obtain ⟨rfl, hs⟩ := hl
  dsimp only at hs
  cases hs with
  | nil =>
    rcases nextF_sound _ _ _ _ h with ⟨h1, h2, h3⟩ | ⟨a, h1, h2, h3, h4⟩
    · exact Or.inl ⟨h1, h2, rfl, .text h3⟩
    · exact Or.inr ⟨a, h1, h2, h3, fun items hi => ⟨rfl, .text (h4 items hi)⟩⟩
  | eof =>
    simp only [next, nextF, Res.ok.injEq, Prod.mk.injEq] at h
    obtain ⟨rfl, rfl⟩ := h
    exact Or.inl ⟨rfl, rfl, rfl, .eof⟩
  | last =>
    simp only [next, nextF, Res.ok.injEq, Prod.mk.injEq] at h
    obtain ⟨rfl, rfl⟩ := h
    refine Or.inr ⟨_, rfl, ⟨rfl, .nil⟩, fun _ => rfl, fun items hi => ⟨rfl, ?_⟩⟩
    obtain ⟨_, hb⟩ := hi
    cases hb with
    | text h => exact .last h
  | int hs =>
    simp only [next, nextF, Res.ok.injEq, Prod.mk.injEq] at h
    obtain ⟨rfl, rfl⟩ := h
    exact Or.inr ⟨.int _, rfl, ⟨rfl, hs⟩, fun h => absurd rfl (h _), fun items hi => ⟨rfl, .int hi.2⟩⟩

end Verif.C58
