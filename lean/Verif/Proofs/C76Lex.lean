import Verif.Spec.C76
import Verif.Proofs.ParseTop

/-! C76: the tokenizer on a tidy text does not refuse anything, and gives no empty
strings on a text without them. -/
namespace Verif.C76
open Lex Parse C53

/-- No error, and a postcondition. -/
def Fine {α} (r : Res α) (Q : α → Prop) : Prop := (∀ m, r ≠ .err m) ∧ ∀ a, r = .ok a → Q a

theorem Fine.ok {α} {a : α} {Q : α → Prop} (h : Q a) : Fine (.ok a) Q :=
  ⟨by simp, fun b e => by cases e; exact h⟩
theorem Fine.ub {α} {m : String} {Q : α → Prop} : Fine (.ub m) Q := ⟨by simp, fun b e => by cases e⟩
theorem Fine.abort {α} {m : String} {Q : α → Prop} : Fine (.abort m) Q := ⟨by simp, fun b e => by cases e⟩
theorem Fine.bind {α β} {r : Res α} {f : α → Res β} {Q : α → Prop} {R : β → Prop}
    (h : Fine r Q) (h2 : ∀ a, Q a → Fine (f a) R) : Fine (r.bind f) R := by
  cases r with
  | ok a => exact h2 a (h.2 a rfl)
  | err m => exact absurd rfl (h.1 m)
  | abort w => exact Fine.abort
  | ub w => exact Fine.ub
theorem Fine.mono {α} {r : Res α} {Q R : α → Prop} (h : Fine r Q) (h2 : ∀ a, Q a → R a) : Fine r R :=
  ⟨h.1, fun a e => h2 a (h.2 a e)⟩

theorem skip_fine (s : List Nat) :
    (∀ p, tidyFrom .comment p s = true → Fine (skip true s) (fun r => tidyFrom .plain .gap r = true ∧ r.length ≤ s.length)) ∧
    (tidyFrom .plain .gap s = true → Fine (skip false s) (fun r => tidyFrom .plain .gap r = true ∧ r.length ≤ s.length)) := by
  induction s with
  | nil => exact ⟨fun p _ => Fine.ok ⟨rfl, by simp⟩, fun _ => Fine.ok ⟨rfl, by simp⟩⟩
  | cons c cs ih =>
    have up : ∀ {r : Res (List Nat)}, Fine r (fun r => tidyFrom .plain .gap r = true ∧ r.length ≤ cs.length) →
        Fine r (fun r => tidyFrom .plain .gap r = true ∧ r.length ≤ (c :: cs).length) :=
      fun h => h.mono fun a ha => ⟨ha.1, by simp only [List.length_cons]; omega⟩
    constructor
    · intro p h
      simp only [skip]
      simp only [tidyFrom] at h
      by_cases hc : c = 10
      · rw [if_pos hc] at h
        simp only [hc]
        subst hc
        exact up (ih.2 h)
      · rw [if_neg hc] at h
        have : (c != 10) = true := by simp [hc]
        rw [this]
        exact up (ih.1 _ h)
    · intro h
      simp only [skip]
      split
      · exact Fine.ub
      · split
        · rename_i hs
          rw [space_iff] at hs
          simp only [tidyFrom, if_pos hs, if_neg (show ¬ (48 ≤ c ∧ c ≤ 57) by omega)] at h
          exact up (ih.2 h)
        · split
          · rename_i hs
            subst hs
            simp [tidyFrom] at h
            exact up (ih.1 _ h)
          · exact Fine.ok ⟨h, Nat.le_refl _⟩

theorem skip_space (s : List Nat) : ∀ b r, skip b s = .ok r → ∀ c cs, r = c :: cs → isSpace c = false := by
  induction s with
  | nil => intro b r e; cases b <;> (cases e; simp)
  | cons c cs ih =>
    intro b r e
    cases b with
    | true => exact ih _ r e
    | false =>
      simp only [skip] at e
      split at e
      · cases e
      · split at e
        · exact ih _ r e
        · rename_i hs
          split at e
          · exact ih _ r e
          · cases e
            intro c' cs' e'
            cases e'
            simpa using hs

theorem number_fine (s : List Nat) (h : tidyFrom .plain .number s = true) : ∀ v,
    Fine (Lex.number s v) (fun o => ∃ m r, o = some (m, r) ∧ tidyFrom .plain .gap r = true ∧ r.length ≤ s.length) := by
  induction s with
  | nil => intro v; exact Fine.ok ⟨_, _, rfl, rfl, Nat.le_refl _⟩
  | cons c cs ih =>
    intro v
    simp only [Lex.number]
    split
    · rename_i hc
      exfalso
      simp only [tidyFrom] at h
      rcases hc with rfl | rfl | rfl <;> simp at h
    · rename_i hc
      split
      · exact Fine.ub
      · split
        · rename_i hd
          rw [digit_iff] at hd
          simp only [tidyFrom, if_pos hd] at h
          refine (ih h _).mono ?_
          rintro a ⟨m, r, h1, h2, h3⟩
          exact ⟨m, r, h1, h2, by simp only [List.length_cons]; omega⟩
        · rename_i hd
          rw [digit_iff] at hd
          refine Fine.ok ⟨_, _, rfl, ?_, Nat.le_refl _⟩
          simp only [tidyFrom, if_neg hd] at h ⊢
          split at h
          · rename_i h1; rw [if_pos h1]; exact h
          · rename_i h1
            rw [if_neg h1]
            split at h
            · rename_i h2; rw [if_pos h2]; exact h
            · rename_i h2
              rw [if_neg h2]
              split at h
              · rename_i h3; rw [if_pos h3]; exact h
              · rename_i h3
                rw [if_neg h3]
                split at h
                · rename_i h4
                  rw [if_pos h4]
                  simp only [Bool.and_eq_true] at h
                  exact h.2
                · rename_i h4
                  rw [if_neg h4]
                  split at h
                  · rename_i h5
                    rw [if_pos h5]
                    simp only [Bool.and_eq_true] at h
                    exact h.2
                  · rename_i h5
                    rw [if_neg h5]
                    exact h

theorem nameChars_fine (s : List Nat) (h : tidyFrom .plain .word s = true) :
    Fine (nameChars s) (fun p => tidyFrom .plain .gap p.2 = true) := by
  induction s with
  | nil => exact Fine.ok rfl
  | cons c cs ih =>
    have hrec : tidyFrom .plain .word cs = true →
        Fine ((nameChars cs).bind fun x => .ok (c :: x.1, x.2)) (fun p : List Nat × List Nat =>
          tidyFrom .plain .gap p.2 = true) := fun h =>
      Fine.bind (ih h) (fun a ha => Fine.ok ha)
    simp only [nameChars]
    simp only [tidyFrom] at h
    split
    · rename_i h1
      refine hrec ?_
      rw [if_neg (by omega), if_neg (by omega), if_neg (by omega), if_neg (by omega)] at h
      by_cases h2 : c = 95
      · rw [if_pos (by omega)] at h
        exact h
      · rw [if_neg (by omega), if_pos (by omega)] at h
        exact h
    · rename_i h1
      split
      · exact Fine.ub
      · split
        · rename_i h2
          refine hrec ?_
          rw [Bool.or_eq_true, alpha_iff, digit_iff] at h2
          by_cases h3 : 48 ≤ c ∧ c ≤ 57
          · rw [if_pos h3] at h
            exact h
          · rw [if_neg h3, if_neg (by omega), if_neg (by omega), if_neg (by omega), if_pos (by omega)] at h
            exact h
        · rename_i h2
          rw [Bool.or_eq_true, alpha_iff, digit_iff] at h2
          refine Fine.ok ?_
          simp only [tidyFrom]
          rw [if_neg (by omega)] at h ⊢
          split at h
          · rename_i h3; rw [if_pos h3]; exact h
          · rename_i h3
            rw [if_neg h3]
            rw [if_neg (show ¬ (c = 46 ∨ c = 36) by omega)] at h ⊢
            rw [if_neg (show ¬ ((65 ≤ c ∧ c ≤ 90) ∨ (97 ≤ c ∧ c ≤ 122) ∨ c = 95) by omega)] at h ⊢
            exact h

theorem stringChars_fine (endc : Nat) (s : List Nat) : ∀ slash esc acc p,
    tidyFrom (.string endc slash) p s = true → Fine (stringChars endc s slash esc acc)
      (fun p => tidyFrom .plain .gap p.2.2 = true) := by
  induction s with
  | nil => intro slash esc acc p h; simp [tidyFrom] at h
  | cons c cs ih =>
    intro slash esc acc p h
    simp only [stringChars]
    simp only [tidyFrom] at h
    split
    · rename_i hc
      rw [if_pos hc] at h
      cases slash with
      | true => exact ih _ _ _ _ h
      | false => exact Fine.ok h
    · rename_i hc
      rw [if_neg hc] at h
      split
      · rename_i hn
        rw [if_pos hn] at h
        cases h
      · rename_i hn
        rw [if_neg hn] at h
        split
        · rename_i hb
          rw [if_pos hb] at h
          exact ih _ _ _ _ h
        · rename_i hb
          rw [if_neg hb] at h
          exact ih _ _ _ _ h

theorem push_fine {α} (l : Lex) (t : Token) (f : Lex → Res α) (Q : α → Prop)
    (h : Fine (f { l with backlog := t :: l.backlog }) Q) : Fine ((push l t).bind f) Q := by
  unfold push
  split
  · exact h
  · exact Fine.abort

theorem nextF_fine (fuel : Nat) : ∀ (l : Lex), l.text.length < fuel → Tidy l.text →
    Fine (nextF fuel l) (fun p => Tidy p.2.text) := by
  induction fuel with
  | zero => intro l h; omega
  | succ fuel ih =>
    intro l hf h
    rw [nextF]
    split
    · exact Fine.ok h
    · have hskip : Fine (skip false l.text) (fun r => (tidyFrom .plain .gap r = true ∧ r.length ≤ l.text.length) ∧
          (∀ cs, r ≠ 35 :: cs) ∧ ∀ c cs, r = c :: cs → isSpace c = false) :=
        ⟨((skip_fine _).2 h).1, fun r e => ⟨((skip_fine _).2 h).2 r e, skip_stops _ _ r e, skip_space _ _ r e⟩⟩
      refine Fine.bind hskip ?_
      rintro (_ | ⟨c, cs⟩) ⟨⟨h1, hlen⟩, h35, hsp⟩
      · exact Fine.ok rfl
      · dsimp only
        split
        · rename_i hp
          refine Fine.ok ?_
          have hp4 := (punct_iff c).1 hp.2.2.2
          simp only [tidyFrom] at h1
          rw [if_neg (by omega), if_neg (by omega)] at h1
          rw [if_neg (by rintro rfl; exact h35 _ rfl), if_neg (by omega), if_neg (by omega)] at h1
          split at h1
          · exact h1
          · simp only [Bool.and_eq_true] at h1
            exact h1.2
        · rename_i hp
          split
          · rename_i hd
            rw [digit_iff] at hd
            have h2 : tidyFrom .plain .number cs = true := by
              simpa [tidyFrom, hd] using h1
            have hn : Fine (Lex.number (c :: cs) 0) (fun o => ∃ m r, o = some (m, r) ∧ tidyFrom .plain .gap r = true ∧
                r.length < (c :: cs).length) := by
              simp only [Lex.number]
              rw [if_neg (by omega), if_neg (by omega), if_pos ((digit_iff c).2 hd)]
              refine (number_fine cs h2 _).mono ?_
              rintro a ⟨m, r, e1, e2, e3⟩
              exact ⟨m, r, e1, e2, by simp only [List.length_cons]; omega⟩
            refine Fine.bind hn ?_
            rintro _ ⟨v, rest, rfl, g, hr⟩
            dsimp only
            refine Fine.bind (ih { l with text := rest } (by dsimp only; omega) g) ?_
            rintro ⟨t, l'⟩ k1
            dsimp only at k1 ⊢
            split
            · exact Fine.ok k1
            · exact push_fine _ _ _ _ (Fine.ok k1)
          · rename_i hd
            rw [digit_iff] at hd
            split
            · rename_i ha
              rw [Bool.or_eq_true, alpha_iff, beq_iff_eq] at ha
              have hw : tidyFrom .plain .word (c :: cs) = true := by
                simp only [tidyFrom] at h1 ⊢
                rw [if_neg hd, if_neg (by omega), if_neg (by omega), if_neg (by omega), if_pos (by omega)] at h1 ⊢
                exact h1
              refine Fine.bind (nameChars_fine _ hw) ?_
              rintro ⟨s, rest⟩ g
              dsimp only at g ⊢
              split
              · exact Fine.ok g
              · split
                · exact Fine.ok g
                · exact Fine.ok g
            · rename_i ha
              rw [Bool.or_eq_true, alpha_iff, beq_iff_eq] at ha
              split
              · rename_i hq
                have hs : tidyFrom (.string c false) .gap cs = true := by
                  simp only [tidyFrom] at h1
                  rw [if_neg hd, if_neg (by omega), if_neg (by omega), if_pos hq] at h1
                  exact h1
                refine Fine.bind (stringChars_fine c cs _ _ _ _ hs) ?_
                rintro ⟨s, esc, rest⟩ g
                exact Fine.ok g
              · rename_i hq
                exfalso
                rw [punct_iff] at hp
                have hsp : ¬ (c = 32 ∨ (9 ≤ c ∧ c ≤ 13)) := by
                  have := hsp c cs rfl
                  rwa [← Bool.not_eq_true, space_iff] at this
                simp only [tidyFrom] at h1
                rw [if_neg hd, if_neg hsp, if_neg (by rintro rfl; exact h35 _ rfl), if_neg hq, if_neg (by omega)] at h1
                split at h1
                · omega
                · simp only [Bool.and_eq_true, decide_eq_true_eq] at h1
                  omega

theorem next_fine (l : Lex) (h : Tidy l.text) : Fine (next l) (fun p => Tidy p.2.text) :=
  nextF_fine _ l (Nat.lt_succ_self _) h

theorem lexIf_fine (p : Token → Bool) (l : Lex) (h : Tidy l.text) : Fine (lexIf p l) (fun q => Tidy q.2.text) := by
  refine Fine.bind (next_fine l h) ?_
  rintro ⟨t, l'⟩ k
  dsimp only at k ⊢
  split
  · exact Fine.ok k
  · exact push_fine _ _ _ _ (Fine.ok k)

theorem lexIfName_fine (l : Lex) (h : Tidy l.text) : Fine (lexIfName l) (fun q => Tidy q.2.text) :=
  Fine.bind (lexIf_fine _ { l with keywords := false } h) fun _ ha => Fine.ok ha

theorem run_tidy {α : Type} (p : Prog α) : ∀ l a l', Tidy l.text → p.run l = .ok (a, l') → Tidy l'.text := by
  induction p with
  | ret a => intro l a l' h e; cases e; exact h
  | fail m => intro l a l' h e; cases e
  | next k ih =>
    intro l a l' h e
    obtain ⟨⟨t, l1⟩, h1, h2⟩ := Res.bind_eq_ok.1 e
    exact ih t l1 a l' ((next_fine l h).2 _ h1) h2
  | lexIf p k ih =>
    intro l a l' h e
    obtain ⟨⟨t, l1⟩, h1, h2⟩ := Res.bind_eq_ok.1 e
    exact ih t l1 a l' ((lexIf_fine p l h).2 _ h1) h2
  | lexIfName k ih =>
    intro l a l' h e
    obtain ⟨⟨t, l1⟩, h1, h2⟩ := Res.bind_eq_ok.1 e
    exact ih t l1 a l' ((lexIfName_fine l h).2 _ h1) h2

theorem run_inv {α : Type} (p : Prog α) : ∀ l a l', C53.Inv l → p.run l = .ok (a, l') → C53.Inv l' := by
  induction p with
  | ret a => intro l a l' h e; cases e; exact h
  | fail m => intro l a l' h e; cases e
  | next k ih =>
    intro l a l' h e
    obtain ⟨⟨t, l1⟩, h1, h2⟩ := Res.bind_eq_ok.1 e
    have := (next_post l h).2 _ h1
    exact ih t l1 a l' ⟨this.1, Nat.le_succ_of_le this.2⟩ h2
  | lexIf p k ih =>
    intro l a l' h e
    obtain ⟨⟨t, l1⟩, h1, h2⟩ := Res.bind_eq_ok.1 e
    exact ih t l1 a l' ((lexIf_post p l h).2 _ h1) h2
  | lexIfName k ih =>
    intro l a l' h e
    obtain ⟨⟨t, l1⟩, h1, h2⟩ := Res.bind_eq_ok.1 e
    refine ih t l1 a l' ?_ h2
    obtain ⟨⟨t', l2⟩, h3, h4⟩ := Res.bind_eq_ok.1 h1
    cases h4
    exact (lexIf_post _ { l with keywords := false } h).2 _ h3

/-- Not an empty string. -/
def Filled (t : Token) : Prop := ∀ e, t ≠ .string [] e

/-- No empty strings ahead. -/
def J (l : Lex) : Prop := NoEmpty l.text ∧ ∀ t ∈ l.backlog, Filled t

theorem noEmpty_tail {c : Nat} {cs : List Nat} (h : NoEmpty (c :: cs)) : NoEmpty cs := by
  cases cs with
  | nil => rfl
  | cons d cs =>
    simp only [NoEmpty, noEmpty, Bool.and_eq_true] at h
    exact h.2

theorem noEmpty_suffix {s t : List Nat} (hs : t <:+ s) (h : NoEmpty s) : NoEmpty t := by
  induction s with
  | nil => rw [List.suffix_nil] at hs; subst hs; rfl
  | cons c cs ih =>
    rcases List.suffix_cons_iff.1 hs with rfl | hs
    · exact h
    · exact ih hs (noEmpty_tail h)

theorem skip_suffix (s : List Nat) : ∀ b r, skip b s = .ok r → r <:+ s := by
  induction s with
  | nil => intro b r e; cases b <;> (cases e; exact List.suffix_refl _)
  | cons c cs ih =>
    intro b r e
    cases b with
    | true => exact (ih _ r e).trans (List.suffix_cons ..)
    | false =>
      simp only [skip] at e
      split at e
      · cases e
      · split at e
        · exact (ih _ r e).trans (List.suffix_cons ..)
        · split at e
          · exact (ih _ r e).trans (List.suffix_cons ..)
          · cases e; exact List.suffix_refl _

theorem number_suffix (s : List Nat) : ∀ v m r, Lex.number s v = .ok (some (m, r)) → r <:+ s := by
  induction s with
  | nil => intro v m r e; cases e; exact List.suffix_refl _
  | cons c cs ih =>
    intro v m r e
    simp only [Lex.number] at e
    split at e
    · cases e
    · split at e
      · cases e
      · split at e
        · exact (ih _ _ r e).trans (List.suffix_cons ..)
        · cases e; exact List.suffix_refl _

theorem nameChars_suffix (s : List Nat) : ∀ a r, nameChars s = .ok (a, r) → r <:+ s := by
  induction s with
  | nil => intro a r e; cases e; exact List.suffix_refl _
  | cons c cs ih =>
    intro a r e
    simp only [nameChars] at e
    split at e
    · obtain ⟨⟨x, y⟩, h1, h2⟩ := Res.bind_eq_ok.1 e
      cases h2
      exact (ih _ _ h1).trans (List.suffix_cons ..)
    · split at e
      · cases e
      · split at e
        · obtain ⟨⟨x, y⟩, h1, h2⟩ := Res.bind_eq_ok.1 e
          cases h2
          exact (ih _ _ h1).trans (List.suffix_cons ..)
        · cases e; exact List.suffix_refl _

theorem stringChars_suffix (endc : Nat) (s : List Nat) : ∀ slash esc acc a f r,
    stringChars endc s slash esc acc = .ok (a, f, r) → r <:+ s ∧ acc <+: a := by
  induction s with
  | nil => intro slash esc acc a f r e; cases e
  | cons c cs ih =>
    intro slash esc acc a f r e
    have up : ∀ {sl es}, stringChars endc cs sl es (acc ++ [c]) = .ok (a, f, r) → r <:+ c :: cs ∧ acc <+: a := fun h =>
      ⟨((ih _ _ _ _ _ _ h).1).trans (List.suffix_cons ..), (List.prefix_append ..).trans (ih _ _ _ _ _ _ h).2⟩
    simp only [stringChars] at e
    split at e
    · cases slash with
      | true => exact up e
      | false => cases e; exact ⟨List.suffix_cons .., List.prefix_refl _⟩
    · split at e
      · cases e
      · split at e
        · exact up e
        · exact up e

theorem string_filled {endc : Nat} {s : List Nat} {a : List Nat} {f : Bool} {r : List Nat} (hq : endc = 34 ∨ endc = 39)
    (h : NoEmpty (endc :: s)) (e : stringChars endc s false false [] = .ok (a, f, r)) : a ≠ [] := by
  cases s with
  | nil => cases e
  | cons c cs =>
    simp only [NoEmpty, noEmpty, Bool.and_eq_true, Bool.not_eq_true', Bool.and_eq_false_iff, decide_eq_false_iff_not,
      Bool.or_eq_false_iff] at h
    have hc : ¬ c = endc := by rcases hq with rfl | rfl <;> rcases h.1 with h | h <;> simp_all <;> omega
    have up : ∀ {sl es}, stringChars endc cs sl es [c] = .ok (a, f, r) → a ≠ [] := fun h => by
      have := (stringChars_suffix _ _ _ _ _ _ _ _ h).2
      rintro rfl
      simp at this
    simp only [stringChars, if_neg hc, List.nil_append] at e
    split at e
    · cases e
    · split at e
      · exact up e
      · exact up e

theorem nextF_filled (fuel : Nat) : ∀ (l : Lex) t l', J l → nextF fuel l = .ok (t, l') → Filled t ∧ J l' := by
  induction fuel with
  | zero => intro l t l' _ e; cases e
  | succ fuel ih =>
    rintro ⟨text, kw, bs⟩ t l' ⟨h, hb⟩ e
    dsimp only at h hb
    rw [nextF] at e
    dsimp only at e
    split at e
    · cases e
      exact ⟨hb _ List.mem_cons_self, h, fun t ht => hb t (List.mem_cons_of_mem _ ht)⟩
    · obtain ⟨r, h1, h2⟩ := Res.bind_eq_ok.1 e
      have hn := noEmpty_suffix (skip_suffix _ _ _ h1) h
      cases r with
      | nil => cases h2; exact ⟨by intro e; simp, rfl, by simp⟩
      | cons c cs =>
        dsimp only at h2
        have other : ∀ t rest, rest <:+ c :: cs → Filled t → Filled t ∧ J (⟨rest, kw, []⟩ : Lex) :=
          fun t rest hr ht => ⟨ht, noEmpty_suffix hr hn, by simp⟩
        split at h2
        · cases h2; exact other _ _ (List.suffix_cons ..) (by intro e; simp)
        · split at h2
          · obtain ⟨o, h3, h4⟩ := Res.bind_eq_ok.1 h2
            cases o with
            | none => cases h4
            | some x =>
              obtain ⟨m, rest⟩ := x
              dsimp only at h4
              obtain ⟨⟨t1, l1⟩, h5, h6⟩ := Res.bind_eq_ok.1 h4
              have hj := ih _ _ _ ⟨noEmpty_suffix (number_suffix _ _ _ _ h3) hn, by simp⟩ h5
              dsimp only at h6
              split at h6
              · cases h6; exact ⟨by intro e; simp, hj.2⟩
              · obtain ⟨l2, h7, h8⟩ := Res.bind_eq_ok.1 h6
                cases h8
                unfold push at h7
                split at h7
                · cases h7
                  refine ⟨by intro e; simp, hj.2.1, ?_⟩
                  intro t ht
                  rcases List.mem_cons.1 ht with rfl | ht
                  · exact hj.1
                  · exact hj.2.2 t ht
                · cases h7
          · split at h2
            · obtain ⟨⟨s, rest⟩, h3, h4⟩ := Res.bind_eq_ok.1 h2
              have := nameChars_suffix _ _ _ h3
              dsimp only at h4
              split at h4
              · cases h4; exact other _ _ this (by intro e; simp)
              · split at h4
                · cases h4; exact other _ _ this (by intro e; simp)
                · cases h4; exact other _ _ this (by intro e; simp)
            · split at h2
              · rename_i hq
                obtain ⟨⟨s, f, rest⟩, h3, h4⟩ := Res.bind_eq_ok.1 h2
                cases h4
                refine other _ _ ((stringChars_suffix _ _ _ _ _ _ _ _ h3).1.trans (List.suffix_cons ..)) ?_
                intro e he
                cases he
                exact string_filled hq hn h3 rfl
              · cases h2

theorem next_filled {l : Lex} {t : Token} {l' : Lex} (h : J l) (e : next l = .ok (t, l')) : Filled t ∧ J l' :=
  nextF_filled _ l t l' h e

theorem lexIf_filled {p : Token → Bool} {l : Lex} {t : Option Token} {l' : Lex} (h : J l)
    (e : lexIf p l = .ok (t, l')) : (∀ x, t = some x → Filled x) ∧ J l' := by
  obtain ⟨⟨t1, l1⟩, h1, h2⟩ := Res.bind_eq_ok.1 e
  have hj := next_filled h h1
  dsimp only at h2
  split at h2
  · cases h2; exact ⟨by rintro x ⟨⟩; exact hj.1, hj.2⟩
  · obtain ⟨l2, h7, h8⟩ := Res.bind_eq_ok.1 h2
    cases h8
    unfold push at h7
    split at h7
    · cases h7
      refine ⟨by simp, hj.2.1, ?_⟩
      intro t ht
      rcases List.mem_cons.1 ht with rfl | ht
      · exact hj.1
      · exact hj.2.2 t ht
    · cases h7

theorem lexIfName_filled {l : Lex} {t : Option Token} {l' : Lex} (h : J l)
    (e : lexIfName l = .ok (t, l')) : (∀ x, t = some x → Filled x) ∧ J l' := by
  obtain ⟨⟨t1, l1⟩, h1, h2⟩ := Res.bind_eq_ok.1 e
  have hj := lexIf_filled (l := { l with keywords := false }) h h1
  cases h2
  exact hj

theorem run_J {α : Type} (p : Prog α) : ∀ l a l', J l → p.run l = .ok (a, l') → J l' := by
  induction p with
  | ret a => intro l a l' h e; cases e; exact h
  | fail m => intro l a l' h e; cases e
  | next k ih =>
    intro l a l' h e
    obtain ⟨⟨t, l1⟩, h1, h2⟩ := Res.bind_eq_ok.1 e
    exact ih t l1 a l' (next_filled h h1).2 h2
  | lexIf p k ih =>
    intro l a l' h e
    obtain ⟨⟨t, l1⟩, h1, h2⟩ := Res.bind_eq_ok.1 e
    exact ih t l1 a l' (lexIf_filled h h1).2 h2
  | lexIfName k ih =>
    intro l a l' h e
    obtain ⟨⟨t, l1⟩, h1, h2⟩ := Res.bind_eq_ok.1 e
    exact ih t l1 a l' (lexIfName_filled h h1).2 h2

/-- The strings that options get are not empty. -/
theorem value_filled {k : Kind} {l l' : Lex} {v : Val} (h : J l) (e : (value k).run l = .ok (v, l')) :
    v ≠ .string [] := by
  cases k with
  | string =>
    simp only [value, Parse.string, Prog.bind, Prog.run] at e
    obtain ⟨⟨t, l1⟩, h1, h2⟩ := Res.bind_eq_ok.1 e
    have hf := (lexIf_filled h h1).1
    dsimp only at h2
    split at h2
    · rename_i s f
      cases h2
      intro he
      cases he
      exact hf _ rfl f rfl
    · cases h2
  | int =>
    simp only [value, Parse.int, Prog.bind, Prog.run] at e
    obtain ⟨⟨t, l1⟩, h1, h2⟩ := Res.bind_eq_ok.1 e
    dsimp only at h2
    split at h2
    · cases h2; simp
    · cases h2
  | bool =>
    simp only [value, ifKw, kw, Prog.bind, Prog.run] at e
    obtain ⟨⟨t, l1⟩, h1, h2⟩ := Res.bind_eq_ok.1 e
    cases t with
    | some t => cases h2; simp
    | none =>
      obtain ⟨⟨t, l1⟩, h1, h2⟩ := Res.bind_eq_ok.1 h2
      cases t with
      | some t => cases h2; simp
      | none => cases h2

end Verif.C76
