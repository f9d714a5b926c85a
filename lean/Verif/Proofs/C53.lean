import Verif.Spec.C53

namespace Verif.C53
open Lex

theorem safe_ok {α} (a : α) : Safe (Res.ok a) := ⟨by simp, by simp⟩
theorem safe_err {α} (m : String) : Safe (Res.err m : Res α) := ⟨by simp, by simp⟩

/-- Bind with a postcondition. -/
def Post {α} (r : Res α) (Q : α → Prop) : Prop := Safe r ∧ ∀ a, r = .ok a → Q a

theorem Post.ok {α} {a : α} {Q : α → Prop} (h : Q a) : Post (.ok a) Q :=
  ⟨safe_ok a, fun b e => by cases e; exact h⟩
theorem Post.err {α} {m : String} {Q : α → Prop} : Post (.err m) Q :=
  ⟨safe_err m, fun b e => by cases e⟩
theorem Post.bind {α β} {r : Res α} {f : α → Res β} {Q : α → Prop} {R : β → Prop}
    (h : Post r Q) (h2 : ∀ a, Q a → Post (f a) R) : Post (r.bind f) R := by
  cases r with
  | ok a => exact h2 a (h.2 a rfl)
  | err m => exact Post.err
  | abort w => exact absurd rfl (h.1.1 w)
  | ub w => exact absurd rfl (h.1.2 w)
theorem Post.mono {α} {r : Res α} {Q R : α → Prop} (h : Post r Q) (h2 : ∀ a, Q a → R a) : Post r R :=
  ⟨h.1, fun a e => h2 a (h.2 a e)⟩

theorem digit_iff (c : Nat) : isDigit c = true ↔ 48 ≤ c ∧ c ≤ 57 := by simp [isDigit]
theorem space_iff (c : Nat) : isSpace c = true ↔ c = 32 ∨ (9 ≤ c ∧ c ≤ 13) := by simp [isSpace]
theorem alpha_iff (c : Nat) : isAlpha c = true ↔ (65 ≤ c ∧ c ≤ 90) ∨ (97 ≤ c ∧ c ≤ 122) := by simp [isAlpha]
theorem punct_iff (c : Nat) : isPunct c = true ↔
    (33 ≤ c ∧ c ≤ 47) ∨ (58 ≤ c ∧ c ≤ 64) ∨ (91 ≤ c ∧ c ≤ 96) ∨ (123 ≤ c ∧ c ≤ 126) := by
  simp [isPunct, or_assoc]

theorem calm_ascii {p : Prev} {n c : Nat} {cs : List Nat} (h : calmFrom .plain p n (c :: cs) = true) : c < 128 := by
  simp only [calmFrom, Bool.and_eq_true, decide_eq_true_eq] at h
  exact h.1

/-- At a character that is no part of a number, it does not matter whether one
came before. -/
theorem calm_number {n : Nat} {s : List Nat} (hs : ∀ c r, s = c :: r → isDigit c = false)
    (h : calmFrom .plain .number n s = true) : calmFrom .plain .gap n s = true := by
  cases s with
  | nil => rfl
  | cons c cs =>
    have hd := hs c cs rfl
    rw [← Bool.not_eq_true, digit_iff] at hd
    simp only [calmFrom, if_neg hd] at h ⊢
    exact h

theorem skip_stops (s : List Nat) : ∀ b r, skip b s = .ok r → ∀ cs, r ≠ 35 :: cs := by
  induction s with
  | nil => intro b r e cs; cases b <;> (cases e; simp)
  | cons c cs ih =>
    intro b r e
    cases b with
    | true => exact ih _ r e
    | false =>
      simp only [skip] at e
      split at e
      · cases e
      · split at e
        · exact ih _ r e
        · split at e
          · exact ih _ r e
          · rename_i hc
            cases e
            intro cs' e'
            cases e'
            exact hc rfl

theorem skip_post (s : List Nat) : ∀ n,
    (∀ p, calmFrom .comment p n s = true → Post (skip true s) (fun r => calmFrom .plain .gap n r = true)) ∧
    (calmFrom .plain .gap n s = true → Post (skip false s) (fun r => calmFrom .plain .gap n r = true)) := by
  induction s with
  | nil => intro n; exact ⟨fun p _ => Post.ok rfl, fun _ => Post.ok rfl⟩
  | cons c cs ih =>
    intro n
    constructor
    · intro p h
      simp only [skip]
      simp only [calmFrom] at h
      by_cases hc : c = 10
      · rw [if_pos hc] at h
        simp only [hc]
        exact (ih n).2 h
      · rw [if_neg hc] at h
        have : (c != 10) = true := by simp [hc]
        rw [this]
        exact (ih n).1 _ h
    · intro h
      have hc := calm_ascii h
      simp only [skip]
      rw [if_neg (by omega)]
      split
      · rename_i hs
        rw [space_iff] at hs
        simp only [calmFrom, if_pos hs, if_neg (show ¬ (48 ≤ c ∧ c ≤ 57) by omega), Bool.and_eq_true] at h
        exact (ih n).2 h.2
      · split
        · rename_i hs
          subst hs
          simp [calmFrom] at h
          exact (ih n).1 _ h
        · exact Post.ok h

theorem number_post (s : List Nat) (n : Nat) (h : calmFrom .plain .number n s = true) : ∀ v,
    Post (Lex.number s v) (fun o => ∀ m r, o = some (m, r) → calmFrom .plain .gap n r = true) := by
  induction s with
  | nil => intro v; exact Post.ok (by intro m r e; cases e; rfl)
  | cons c cs ih =>
    intro v
    have hc := calm_ascii h
    simp only [Lex.number]
    split
    · exact Post.ok (by intro m r e; cases e)
    · rw [if_neg (by omega)]
      split
      · rename_i hd
        rw [digit_iff] at hd
        simp only [calmFrom, if_pos hd, Bool.and_eq_true] at h
        exact ih h.2 _
      · rename_i hd
        refine Post.ok ?_
        intro m r e
        cases e
        refine calm_number ?_ h
        intro c' r e
        cases e
        simpa using hd

theorem nameChars_post (s : List Nat) (h : calmFrom .plain .word 0 s = true) :
    Post (nameChars s) (fun p => calmFrom .plain .gap 0 p.2 = true) := by
  induction s with
  | nil => exact Post.ok rfl
  | cons c cs ih =>
    have hc := calm_ascii h
    have hrec : calmFrom .plain .word 0 cs = true →
        Post ((nameChars cs).bind fun x => .ok (c :: x.1, x.2)) (fun p : List Nat × List Nat =>
          calmFrom .plain .gap 0 p.2 = true) := fun h =>
      Post.bind (ih h) (fun a ha => Post.ok ha)
    simp only [nameChars]
    simp only [calmFrom, Bool.and_eq_true] at h
    split
    · rename_i h1
      refine hrec ?_
      rw [if_neg (by omega), if_neg (by omega), if_neg (by omega), if_neg (by omega)] at h
      by_cases h2 : c = 95
      · rw [if_pos (by omega)] at h
        exact h.2
      · rw [if_neg (by omega), if_pos (by omega)] at h
        exact h.2
    · rename_i h1
      rw [if_neg (by omega)]
      split
      · rename_i h2
        refine hrec ?_
        rw [Bool.or_eq_true, alpha_iff, digit_iff] at h2
        by_cases h3 : 48 ≤ c ∧ c ≤ 57
        · rw [if_pos h3] at h
          exact h.2
        · rw [if_neg h3, if_neg (by omega), if_neg (by omega), if_neg (by omega), if_pos (by omega)] at h
          exact h.2
      · rename_i h2
        rw [Bool.or_eq_true, alpha_iff, digit_iff] at h2
        refine Post.ok ?_
        simp only [calmFrom, Bool.and_eq_true]
        rw [if_neg (by omega)] at h ⊢
        split at h
        · rename_i h3; rw [if_pos h3]; exact h
        · rename_i h3
          rw [if_neg h3]
          rw [if_neg (show ¬ (c = 46 ∨ c = 36) by omega)] at h ⊢
          exact h

theorem stringChars_post (endc : Nat) (s : List Nat) : ∀ slash esc acc p n,
    calmFrom (.string endc slash) p n s = true → Post (stringChars endc s slash esc acc)
      (fun p => calmFrom .plain .gap 0 p.2.2 = true) := by
  induction s with
  | nil => intro slash esc acc p n _; exact Post.err
  | cons c cs ih =>
    intro slash esc acc p n h
    simp only [stringChars]
    simp only [calmFrom] at h
    split
    · rename_i hc
      rw [if_pos hc] at h
      cases slash with
      | true => exact ih _ _ _ _ _ h
      | false => exact Post.ok h
    · rename_i hc
      rw [if_neg hc] at h
      split
      · exact Post.err
      · rename_i hn
        rw [if_neg hn] at h
        split
        · rename_i hb
          rw [if_pos hb] at h
          exact ih _ _ _ _ _ h
        · rename_i hb
          rw [if_neg hb] at h
          exact ih _ _ _ _ _ h

/-- What one read of a token leaves, `n` integers before it in the row. -/
def Left (n : Nat) (p : Token × Lex) : Prop :=
  Calm p.2.text ∧ p.2.backlog.length + n ≤ 3

theorem nextF_post (fuel : Nat) : ∀ (l : Lex) (n : Nat), l.backlog = [] → n ≤ 3 →
    calmFrom .plain .gap n l.text = true → Post (nextF fuel l) (Left n) := by
  induction fuel with
  | zero => intro l n _ _ _; exact Post.err
  | succ fuel ih =>
    intro l n hb hn h
    rw [nextF, hb]
    dsimp only
    have hskip : Post (skip false l.text) (fun r => calmFrom .plain .gap n r = true ∧ ∀ cs, r ≠ 35 :: cs) :=
      ⟨((skip_post _ n).2 h).1, fun r e => ⟨((skip_post _ n).2 h).2 r e, skip_stops _ _ r e⟩⟩
    refine Post.bind hskip ?_
    rintro (_ | ⟨c, cs⟩) ⟨h1, h35⟩
    · refine Post.ok ⟨rfl, ?_⟩
      simp; omega
    · have hc := calm_ascii h1
      dsimp only
      have hleft : ∀ t rest, Calm rest → Left n (t, { l with text := rest }) :=
        fun t rest hr => ⟨hr, by simp only [hb, List.length_nil]; omega⟩
      rw [hb] at hleft
      split
      · rename_i hp
        refine Post.ok (hleft _ _ ?_)
        have hp4 := (punct_iff c).1 hp.2.2.2
        simp only [calmFrom, Bool.and_eq_true] at h1
        rw [if_neg (by omega), if_neg (by omega)] at h1
        rw [if_neg (by rintro rfl; exact h35 _ rfl), if_neg (by omega), if_neg (by omega)] at h1
        split at h1 <;> exact h1.2
      · split
        · rename_i hd
          rw [digit_iff] at hd
          have h2 : n < 3 ∧ calmFrom .plain .number (n + 1) cs = true := by
            simpa [calmFrom, hd, hc] using h1
          have h3 : calmFrom .plain .number (n + 1) (c :: cs) = true := by
            simpa [calmFrom, hd, hc] using h2.2
          refine Post.bind (number_post _ _ h3 0) ?_
          rintro (_ | ⟨v, rest⟩) hv
          · exact Post.err
          · have g := hv v rest rfl
            dsimp only
            refine Post.bind (ih ⟨rest, l.keywords, []⟩ (n + 1) rfl (by omega) g) ?_
            rintro ⟨t, l'⟩ ⟨k1, k2⟩
            dsimp only at k1 k2
            have hpush : Post ((push l' t).bind fun l => Res.ok (Token.int v, l)) (Left n) := by
              unfold push
              rw [if_pos (by omega)]
              refine Post.ok ⟨k1, ?_⟩
              simp only [List.length_cons]
              omega
            dsimp only
            split
            · exact Post.ok ⟨k1, by dsimp only; omega⟩
            · exact hpush
        · rename_i hp hd
          rw [digit_iff] at hd
          split
          · rename_i ha
            rw [Bool.or_eq_true, alpha_iff, beq_iff_eq] at ha
            have hw : calmFrom .plain .word 0 (c :: cs) = true := by
              simp only [calmFrom, Bool.and_eq_true] at h1 ⊢
              rw [if_neg hd, if_neg (by omega), if_neg (by omega), if_neg (by omega), if_pos (by omega)] at h1 ⊢
              exact h1
            refine Post.bind (nameChars_post _ hw) ?_
            rintro ⟨s, rest⟩ g
            dsimp only at g ⊢
            split
            · exact Post.ok (hleft _ _ g)
            · split
              · exact Post.ok (hleft _ _ g)
              · exact Post.ok (hleft _ _ g)
          · split
            · rename_i hq
              have hs : calmFrom (.string c false) .gap 0 cs = true := by
                simp only [calmFrom, Bool.and_eq_true] at h1
                rw [if_neg hd, if_neg (by omega), if_neg (by omega), if_pos hq] at h1
                exact h1.2
              refine Post.bind (stringChars_post c cs _ _ _ _ _ hs) ?_
              rintro ⟨s, esc, rest⟩ g
              exact Post.ok (hleft _ _ g)
            · exact Post.err

/-- Between two operations of a parser. -/
def Inv (l : Lex) : Prop := Calm l.text ∧ l.backlog.length ≤ 4

theorem inv_start {text : List Nat} (h : Calm text) : Inv (start text) := ⟨h, by simp [start]⟩

theorem next_post (l : Lex) (h : Inv l) : Post (next l) (fun p => Calm p.2.text ∧ p.2.backlog.length ≤ 3) := by
  obtain ⟨h1, h2⟩ := h
  cases hb : l.backlog with
  | nil => exact nextF_post _ l 0 hb (by omega) h1
  | cons t ts =>
    unfold next
    rw [nextF, hb]
    rw [hb] at h2
    simp only [List.length_cons] at h2
    exact Post.ok ⟨h1, by dsimp only; omega⟩

theorem lexIf_post (p : Token → Bool) (l : Lex) (h : Inv l) : Post (lexIf p l) (fun q => Inv q.2) := by
  refine Post.bind (next_post l h) ?_
  rintro ⟨t, l'⟩ ⟨k1, k2⟩
  dsimp only at *
  split
  · exact Post.ok ⟨k1, by dsimp only; omega⟩
  · unfold push
    rw [if_pos (by omega)]
    refine Post.ok ⟨k1, ?_⟩
    simp only [List.length_cons]
    omega

theorem step_post (op : Op) (l : Lex) (h : Inv l) : Post (step l op) Inv := by
  cases op with
  | next => exact Post.bind (next_post l h) (fun a ha => Post.ok ⟨ha.1, Nat.le_succ_of_le ha.2⟩)
  | lexIf p => exact Post.bind (lexIf_post p l h) (fun a ha => Post.ok ha)
  | lexIfName =>
    refine Post.bind (Q := fun q => Inv q.2) ?_ (fun a ha => Post.ok ha)
    exact Post.bind (lexIf_post _ { l with keywords := false } h) (fun a ha => Post.ok ha)

theorem run_post (ops : List Op) : ∀ l, Inv l → Post (run l ops) Inv := by
  induction ops with
  | nil => intro l h; exact Post.ok h
  | cons op ops ih => intro l h; exact Post.bind (step_post op l h) (fun a ha => ih a ha)

end Verif.C53
