import Verif.Proofs.ParseState

/-! A parser on items, against the same parser on the tokenizer. -/
namespace Verif.C58
open Lex Parse

/-- A parser on items. -/
def exec {α : Type} : Prog α → List Item → Option (α × List Item)
  | .ret a, l => some (a, l)
  | .fail _, _ => none
  | .next k, [] => exec (k .eof) []
  | .next k, a :: l => exec (k (token a)) l
  | .lexIf p k, [] => if p .eof then exec (k (some .eof)) [] else exec (k none) []
  | .lexIf p k, a :: l => if p (token a) then exec (k (some (token a))) l else exec (k none) (a :: l)
  | .lexIfName k, [] => exec (k none) []
  | .lexIfName k, .word s :: l => exec (k (some (.name s))) l
  | .lexIfName _, .int _ :: _ => none
  | .lexIfName k, a :: l => exec (k none) (a :: l)

theorem exec_bind {α β : Type} (p : Prog α) (f : α → Prog β) (l : List Item) :
    exec (p.bind f) l = (exec p l).bind fun r => exec (f r.1) r.2 := by
  induction p generalizing l with
  | ret a => simp [Prog.bind, exec]
  | fail m => simp [Prog.bind, exec]
  | next k ih =>
    cases l with
    | nil => simp [Prog.bind, exec, ih]
    | cons a l => simp [Prog.bind, exec, ih]
  | lexIf p k ih =>
    cases l with
    | nil => simp only [Prog.bind, exec]; split <;> rw [ih]
    | cons a l => simp only [Prog.bind, exec]; split <;> rw [ih]
  | lexIfName k ih =>
    cases l with
    | nil => simp [Prog.bind, exec, ih]
    | cons a l => cases a <;> simp [Prog.bind, exec, ih]

/-- A parser that never gets past a number standing next. -/
def Refuses {α : Type} : Prog α → Prop
  | .ret _ => False
  | .fail _ => True
  | .next _ => False
  | .lexIf p k => (∀ n, p (.int n) = false) ∧ Refuses (k none)
  | .lexIfName _ => False

/-- lex_if_name is used only right after a token that is no number, and a number
found in place of a name is refused.  The flag says whether such a token has just
been read. -/
def Wf {α : Type} : Prog α → Bool → Prop
  | .ret _, _ => True
  | .fail _, _ => True
  | .next k, _ => ∀ t, Wf (k t) (!isInt t)
  | .lexIf p k, _ => (∀ t, p t = true → Wf (k (some t)) (!isInt t)) ∧ Wf (k none) false
  | .lexIfName k, f => f = true ∧ (∀ s, Wf (k (some (.name s))) true) ∧ Wf (k none) false ∧ Refuses (k none)

/-- lex_if_name is not used at all. -/
def NoName {α : Type} : Prog α → Prop
  | .ret _ => True
  | .fail _ => True
  | .next k => ∀ t, NoName (k t)
  | .lexIf p k => ∀ t, (∀ t', t = some t' → p t' = true) → NoName (k t)
  | .lexIfName _ => False

theorem NoName.wf {α : Type} (p : Prog α) : NoName p → ∀ f, Wf p f := by
  induction p with
  | ret a => intro _ _; trivial
  | fail m => intro _ _; trivial
  | next k ih => intro h f t; exact ih t (h t) _
  | lexIf p k ih =>
    intro h f
    exact ⟨fun t ht => ih _ (h _ (by intro t' e; cases e; exact ht)) _, ih _ (h _ (by simp)) _⟩
  | lexIfName k ih => intro h; exact h.elim

theorem NoName.bind {α β : Type} {p : Prog α} {f : α → Prog β} (hp : NoName p) (hf : ∀ a, NoName (f a)) : NoName (p.bind f) := by
  induction p with
  | ret a => exact hf a
  | fail m => trivial
  | next k ih => intro t; exact ih t (hp t)
  | lexIf p k ih => intro t ht; exact ih t (hp t ht)
  | lexIfName k ih => exact hp.elim

theorem refuses_run {α : Type} (p : Prog α) (l : Lex) (n : Nat) (ts : List Token) (hb : l.backlog = .int n :: ts) (h : Refuses p) :
    ∀ r, p.run l ≠ .ok r := by
  induction p with
  | ret a => exact h.elim
  | fail m => intro r; simp [Prog.run]
  | next k ih => exact h.elim
  | lexIf p k ih =>
    intro r e
    have hn : Lex.next l = .ok (.int n, { l with backlog := ts }) := by
      rw [next, nextF, hb]
    simp only [Prog.run, Lex.lexIf, hn, Res.bind_ok, h.1 n, Bool.false_eq_true, if_false] at e
    obtain ⟨⟨o, l'⟩, e1, e2⟩ := Res.bind_eq_ok.1 e
    obtain ⟨l2, e3, e4⟩ := Res.bind_eq_ok.1 e1
    simp only [Res.ok.injEq, Prod.mk.injEq] at e4
    obtain ⟨rfl, rfl⟩ := e4
    unfold push at e3
    split at e3
    · simp only [Res.ok.injEq] at e3
      have : l2 = l := by rw [← e3, ← hb]
      subst this
      exact ih none h.2 r e2
    · simp at e3
  | lexIfName k ih => exact h.elim

theorem push_ok {l l' : Lex} {t : Token} (h : push l t = .ok l') : l' = { l with backlog := t :: l.backlog } := by
  unfold push at h
  split at h
  · simpa using h.symm
  · simp at h

/-- The state after a lex_if that did not match, as items. -/
theorem At.push {l : Lex} {a : Item} {items : List Item} (h : At l items) (hi : (∀ n, a ≠ .int n) → l.backlog = []) :
    At { l with backlog := token a :: l.backlog } (a :: items) := ⟨h.1, h.2.push hi⟩

theorem isInt_false {a : Item} (h : (!isInt (token a)) = true) : ∀ n, a ≠ .int n := by
  rintro n rfl
  simp [token, isInt] at h

theorem nonint_of {a : Item} : (∀ n, a ≠ .int n) ↔ isInt (token a) = false := by
  constructor
  · intro h
    cases e : isInt (token a) with
    | false => rfl
    | true =>
      obtain ⟨n, rfl⟩ := (isInt_token a).1 e
      exact absurd rfl (h n)
  · rintro h n rfl
    simp [token, isInt] at h

theorem complete {α : Type} (p : Prog α) : ∀ (f : Bool) (l : Lex) (items : List Item) (a : α) (items' : List Item), Wf p f → At l items →
    (f = true → l.backlog = []) → NoRun items → exec p items = some (a, items') →
    ∃ l', p.run l = .ok (a, l') ∧ At l' items' := by
  induction p with
  | ret b =>
    intro f l items a items' _ hat _ _ e
    simp only [exec, Option.some.injEq, Prod.mk.injEq] at e
    obtain ⟨rfl, rfl⟩ := e
    exact ⟨l, rfl, hat⟩
  | fail m => intro f l items a items' _ _ _ _ e; simp [exec] at e
  | next k ih =>
    intro f l items a items' hw hat _ hr e
    rcases next_complete hat hr with ⟨rfl, hn⟩ | ⟨b, items1, l1, rfl, hn, hat1, hi⟩
    · simp only [exec] at e
      obtain ⟨l', h1, h2⟩ := ih .eof _ ⟨[], true, []⟩ [] a items' (hw _) ⟨rfl, .text (.nil (.gap .nil))⟩ (fun _ => rfl) hr e
      exact ⟨l', by rw [Prog.run, hn, Res.bind_ok, h1], h2⟩
    · simp only [exec] at e
      obtain ⟨l', h1, h2⟩ := ih (token b) _ l1 items1 a items' (hw _) hat1 (fun h => hi (isInt_false h)) hr.2 e
      exact ⟨l', by rw [Prog.run, hn, Res.bind_ok, h1], h2⟩
  | lexIf p k ih =>
    intro f l items a items' hw hat _ hr e
    rcases next_complete hat hr with ⟨rfl, hn⟩ | ⟨b, items1, l1, rfl, hn, hat1, hi⟩
    · simp only [exec] at e
      cases hp : p .eof with
      | true =>
        rw [hp] at e
        simp only [if_true] at e
        obtain ⟨l', h1, h2⟩ := ih (some .eof) _ ⟨[], true, []⟩ [] a items' (hw.1 _ hp) ⟨rfl, .text (.nil (.gap .nil))⟩ (fun _ => rfl) hr e
        exact ⟨l', by simp only [Prog.run, Lex.lexIf, hn, Res.bind_ok, hp, if_true]; exact h1, h2⟩
      | false =>
        rw [hp] at e
        simp only [Bool.false_eq_true, if_false] at e
        obtain ⟨l', h1, h2⟩ := ih none false ⟨[], true, [.eof]⟩ [] a items' hw.2 ⟨rfl, .eof⟩ (fun h => by simp at h) hr e
        refine ⟨l', ?_, h2⟩
        have hpush : push ⟨[], true, []⟩ .eof = .ok ⟨[], true, [.eof]⟩ := rfl
        simp only [Prog.run, Lex.lexIf, hn, Res.bind_ok, hp, Bool.false_eq_true, if_false, hpush]
        exact h1
    · simp only [exec] at e
      cases hp : p (token b) with
      | true =>
        rw [hp] at e
        simp only [if_true] at e
        obtain ⟨l', h1, h2⟩ := ih (some (token b)) _ l1 items1 a items' (hw.1 _ hp) hat1 (fun h => hi (isInt_false h)) hr.2 e
        exact ⟨l', by simp only [Prog.run, Lex.lexIf, hn, Res.bind_ok, hp, if_true]; exact h1, h2⟩
      | false =>
        rw [hp] at e
        simp only [Bool.false_eq_true, if_false] at e
        obtain ⟨l', h1, h2⟩ := ih none false { l1 with backlog := token b :: l1.backlog } (b :: items1) a items' hw.2
          (hat1.push hi) (fun h => by simp at h) hr e
        refine ⟨l', ?_, h2⟩
        have hlen : l1.backlog.length < 4 := by
          have := (hat1.push hi).2.length
          have hl := hr.1
          simp only [List.length_cons] at this
          omega
        have hpush : push l1 (token b) = .ok { l1 with backlog := token b :: l1.backlog } := by rw [push, if_pos hlen]
        simp only [Prog.run, Lex.lexIf, hn, Res.bind_ok, hp, Bool.false_eq_true, if_false, hpush]
        exact h1
  | lexIfName k ih =>
    intro f l items a items' hw hat hf hr e
    obtain ⟨hw0, hw1, hw2, hw3⟩ := hw
    obtain ⟨t, kw, bs⟩ := l
    have hb : bs = [] := hf hw0
    subst hb
    obtain ⟨hk, hb⟩ := hat
    dsimp only at hk hb
    subst hk
    have run_eq : ∀ {x : Token} {t' : List Nat}, (∀ s, x ≠ .name s) → nextF (t.length + 1) ⟨t, false, []⟩ = .ok (x, ⟨t', false, []⟩) →
        Lex.lexIfName ⟨t, true, []⟩ = .ok (none, ⟨t', true, [x]⟩) := by
      intro x t' hx hn
      simp only [Lex.lexIfName, Lex.lexIf, next, hn, Res.bind_ok]
      rfl
    cases hb with
    | text h =>
      cases h with
      | nil ht =>
        simp only [exec] at e
        obtain ⟨l', h1, h2⟩ := ih none false ⟨[], true, [.eof]⟩ [] a items' hw2 ⟨rfl, .eof⟩ (fun h => by simp at h) hr e
        exact ⟨l', by rw [Prog.run, run_eq (by simp) (nextF_eof rfl ht), Res.bind_ok, h1], h2⟩
      | word hg hs hrest hl =>
        simp only [exec] at e
        rename_i g s l rest
        obtain ⟨l', h1, h2⟩ := ih (some (.name s)) true ⟨rest, true, []⟩ l a items' (hw1 s) ⟨rfl, .text hl⟩ (fun _ => rfl) hr.2 e
        refine ⟨l', ?_, h2⟩
        have hn := nextF_word (fuel := (g ++ s ++ rest).length) (l := ⟨g ++ s ++ rest, false, []⟩) rfl rfl hg hs hrest
        simp only [Prog.run, Lex.lexIfName, Lex.lexIf, next, hn, Res.bind_ok, tokenK, if_true]
        exact h1
      | int => simp [exec] at e
      | unit => simp [exec] at e
      | string hg hq hs hl =>
        simp only [exec] at e
        rename_i g q s l rest
        obtain ⟨l', h1, h2⟩ := ih none false ⟨rest, true, [token (.string s)]⟩ (.string s :: l) a items' hw2 ⟨rfl, .last hl⟩
          (fun h => by simp at h) hr e
        exact ⟨l', by rw [Prog.run, run_eq (by simp [token]) (nextF_string rfl rfl hg hq hs), Res.bind_ok, h1], h2⟩
      | symbol hg hc hl =>
        simp only [exec] at e
        rename_i g c l rest
        obtain ⟨l', h1, h2⟩ := ih none false ⟨rest, true, [token (.symbol c)]⟩ (.symbol c :: l) a items' hw2 ⟨rfl, .last hl⟩
          (fun h => by simp at h) hr e
        exact ⟨l', by rw [Prog.run, run_eq (by simp) (nextF_symbol rfl rfl hg hc), Res.bind_ok]; exact h1, h2⟩

theorem sound {α : Type} (p : Prog α) : ∀ (f : Bool) (l : Lex) (a : α) (l' : Lex), Wf p f → Good l →
    (f = true → l.backlog = []) → p.run l = .ok (a, l') →
    Good l' ∧ ∀ items', At l' items' → ∃ items, At l items ∧ exec p items = some (a, items') := by
  induction p with
  | ret b =>
    intro f l a l' _ hg _ e
    simp only [Prog.run, Res.ok.injEq, Prod.mk.injEq] at e
    obtain ⟨rfl, rfl⟩ := e
    exact ⟨hg, fun items' h => ⟨items', h, rfl⟩⟩
  | fail m => intro f l a l' _ _ _ e; simp [Prog.run] at e
  | next k ih =>
    intro f l a l' hw hg _ e
    obtain ⟨⟨t, l1⟩, h1, h2⟩ := Res.bind_eq_ok.1 e
    rcases next_sound hg h1 with ⟨rfl, rfl, hat⟩ | ⟨b, rfl, hg1, hi, hat⟩
    · obtain ⟨hg', h3⟩ := ih .eof _ ⟨[], true, []⟩ a l' (hw _) ⟨rfl, .nil⟩ (fun _ => rfl) h2
      refine ⟨hg', fun items' hit => ?_⟩
      obtain ⟨items, hi1, hi2⟩ := h3 items' hit
      obtain ⟨_, hi1⟩ := hi1
      have : items = [] := by
        cases hi1 with
        | text h =>
          have := text_length h
          simpa using this
      subst this
      exact ⟨[], hat, hi2⟩
    · obtain ⟨hg', h3⟩ := ih (token b) _ l1 a l' (hw _) hg1 (fun h => hi (isInt_false h)) h2
      refine ⟨hg', fun items' hit => ?_⟩
      obtain ⟨items, hi1, hi2⟩ := h3 items' hit
      exact ⟨b :: items, hat items hi1, hi2⟩
  | lexIf p k ih =>
    intro f l a l' hw hg _ e
    obtain ⟨⟨o, l2⟩, h1, h2⟩ := Res.bind_eq_ok.1 e
    obtain ⟨⟨t, l1⟩, h3, h4⟩ := Res.bind_eq_ok.1 h1
    dsimp only at h4 h2
    cases hp : p t with
    | true =>
      rw [hp] at h4
      simp only [if_true, Res.ok.injEq, Prod.mk.injEq] at h4
      obtain ⟨rfl, rfl⟩ := h4
      rcases next_sound hg h3 with ⟨rfl, rfl, hat⟩ | ⟨b, rfl, hg1, hi, hat⟩
      · obtain ⟨hg', h5⟩ := ih (some .eof) _ ⟨[], true, []⟩ a l' (hw.1 _ hp) ⟨rfl, .nil⟩ (fun _ => rfl) h2
        refine ⟨hg', fun items' hit => ?_⟩
        obtain ⟨items, hi1, hi2⟩ := h5 items' hit
        obtain ⟨_, hi1⟩ := hi1
        have : items = [] := by
          cases hi1 with
          | text h =>
            have := text_length h
            simpa using this
        subst this
        exact ⟨[], hat, by simp [exec, hp, hi2]⟩
      · obtain ⟨hg', h5⟩ := ih (some (token b)) _ l1 a l' (hw.1 _ hp) hg1 (fun h => hi (isInt_false h)) h2
        refine ⟨hg', fun items' hit => ?_⟩
        obtain ⟨items, hi1, hi2⟩ := h5 items' hit
        exact ⟨b :: items, hat items hi1, by simp [exec, hp, hi2]⟩
    | false =>
      rw [hp] at h4
      simp only [Bool.false_eq_true, if_false] at h4
      obtain ⟨l3, h5, h6⟩ := Res.bind_eq_ok.1 h4
      simp only [Res.ok.injEq, Prod.mk.injEq] at h6
      obtain ⟨rfl, rfl⟩ := h6
      have := push_ok h5
      subst this
      rcases next_sound hg h3 with ⟨rfl, rfl, hat⟩ | ⟨b, rfl, hg1, hi, hat⟩
      · obtain ⟨hg', h7⟩ := ih none false ⟨[], true, [.eof]⟩ a l' hw.2 ⟨rfl, .eof⟩ (fun h => by simp at h) h2
        refine ⟨hg', fun items' hit => ?_⟩
        obtain ⟨items, hi1, hi2⟩ := h7 items' hit
        obtain ⟨_, hi1⟩ := hi1
        have : items = [] := by
          generalize e : ([Token.eof] : List Token) = ts at hi1
          dsimp only at hi1
          cases hi1 with
          | text => simp at e
          | eof => rfl
          | last => rw [List.cons.injEq] at e; exact absurd e.1.symm (token_ne_eof _)
          | int => simp at e
        subst this
        exact ⟨[], hat, by simp [exec, hp, hi2]⟩
      · obtain ⟨hg', h7⟩ := ih none false { l1 with backlog := token b :: l1.backlog } a l' hw.2
          ⟨hg1.1, hg1.2.push hi⟩ (fun h => by simp at h) h2
        refine ⟨hg', fun items' hit => ?_⟩
        obtain ⟨items, hi1, hi2⟩ := h7 items' hit
        obtain ⟨items1, rfl, hb, _⟩ := hi1.2.pop
        exact ⟨b :: items1, hat items1 ⟨hg1.1, hb⟩, by simp [exec, hp, hi2]⟩
  | lexIfName k ih =>
    intro f l a l' hw hg hf e
    obtain ⟨hw0, hw1, hw2, hw3⟩ := hw
    obtain ⟨t, kw, bs⟩ := l
    have hb : bs = [] := hf hw0
    subst hb
    obtain ⟨hk, hb⟩ := hg
    dsimp only at hk hb
    subst hk
    obtain ⟨⟨o, l3⟩, h1, h2⟩ := Res.bind_eq_ok.1 e
    dsimp only at h2
    obtain ⟨⟨o', l2⟩, h3, h4⟩ := Res.bind_eq_ok.1 h1
    simp only [Res.ok.injEq, Prod.mk.injEq] at h4
    obtain ⟨rfl, rfl⟩ := h4
    obtain ⟨⟨x, l1⟩, h5, h6⟩ := Res.bind_eq_ok.1 h3
    dsimp only at h6
    by_cases hx : ∃ n, x = .int n
    · obtain ⟨n, rfl⟩ := hx
      simp only [Bool.false_eq_true, if_false] at h6
      obtain ⟨l4, h7, h8⟩ := Res.bind_eq_ok.1 h6
      simp only [Res.ok.injEq, Prod.mk.injEq] at h8
      obtain ⟨rfl, rfl⟩ := h8
      have := push_ok h7
      subst this
      exact absurd h2 (refuses_run _ _ n _ rfl hw3 _)
    · have hint : ∀ g s rest, Gap g → C47.IsNumber s → EndsNumber rest → t = g ++ s ++ rest → False := by
        intro g s rest hg hs hr et
        apply hx
        rw [next, nextF_int (l := ⟨t, false, []⟩) rfl et hg hs hr] at h5
        obtain ⟨⟨y, l5⟩, q1, q2⟩ := Res.bind_eq_ok.1 h5
        dsimp only at q2
        split at q2
        · simp only [Res.ok.injEq, Prod.mk.injEq] at q2
          exact ⟨_, q2.1.symm⟩
        · obtain ⟨l6, _, q3⟩ := Res.bind_eq_ok.1 q2
          simp only [Res.ok.injEq, Prod.mk.injEq] at q3
          exact ⟨_, q3.1.symm⟩
      rcases nextF_inv (l := ⟨t, false, []⟩) rfl h5 with ⟨rfl, ht, rfl⟩ | ⟨b, hb1, rfl, el, ht⟩ | ⟨g, s, rest, hg, hs, hr, et⟩
      · simp only [Bool.false_eq_true, if_false] at h6
        obtain ⟨l4, h7, h8⟩ := Res.bind_eq_ok.1 h6
        simp only [Res.ok.injEq, Prod.mk.injEq] at h8
        obtain ⟨rfl, rfl⟩ := h8
        have := push_ok h7
        subst this
        obtain ⟨hg', h9⟩ := ih none false ⟨[], true, [.eof]⟩ a l' hw2 ⟨rfl, .eof⟩ (fun h => by simp at h) h2
        refine ⟨hg', fun items' hit => ?_⟩
        obtain ⟨items, hi1, hi2⟩ := h9 items' hit
        obtain ⟨_, hi1⟩ := hi1
        have : items = [] := by
          generalize e : ([Token.eof] : List Token) = ts at hi1
          dsimp only at hi1
          cases hi1 with
          | text => simp at e
          | eof => rfl
          | last => rw [List.cons.injEq] at e; exact absurd e.1.symm (token_ne_eof _)
          | int => simp at e
        subst this
        exact ⟨[], ⟨rfl, .text (.nil ht)⟩, by simp [exec, hi2]⟩
      · obtain ⟨t', kw', bs'⟩ := l1
        simp only [Lex.mk.injEq, true_and] at el
        obtain ⟨rfl, rfl⟩ := el
        have other : (∀ s, token b ≠ .name s) → (∀ s, b ≠ .word s) → (o', l2) = (none, ⟨t', false, [token b]⟩) →
            (∀ items, exec (Prog.lexIfName k) (b :: items) = exec (k none) (b :: items)) →
            Good l' ∧ ∀ items', At l' items' → ∃ items, At ⟨t, true, []⟩ items ∧ exec (Prog.lexIfName k) items = some (a, items') := by
          intro _ _ e1 e2
          simp only [Prod.mk.injEq] at e1
          obtain ⟨rfl, rfl⟩ := e1
          obtain ⟨hg', h9⟩ := ih none false ⟨t', true, [token b]⟩ a l' hw2 ⟨rfl, .last⟩ (fun h => by simp at h) h2
          refine ⟨hg', fun items' hit => ?_⟩
          obtain ⟨items, hi1, hi2⟩ := h9 items' hit
          obtain ⟨items1, rfl, hb, _⟩ := hi1.2.pop
          refine ⟨b :: items1, ⟨rfl, .text (ht _ ?_)⟩, by rw [e2, hi2]⟩
          cases hb with
          | text h => exact h
        cases b with
        | word s =>
          simp only [tokenK, if_true, Res.ok.injEq, Prod.mk.injEq] at h6
          obtain ⟨rfl, rfl⟩ := h6
          obtain ⟨hg', h9⟩ := ih (some (.name s)) true ⟨t', true, []⟩ a l' (hw1 s) ⟨rfl, .nil⟩ (fun _ => rfl) h2
          refine ⟨hg', fun items' hit => ?_⟩
          obtain ⟨items, hi1, hi2⟩ := h9 items' hit
          obtain ⟨_, hi1⟩ := hi1
          refine ⟨.word s :: items, ⟨rfl, .text (ht _ ?_)⟩, by simp [exec, hi2]⟩
          cases hi1 with
          | text h => exact h
        | int n => exact absurd rfl (hb1 n)
        | string s =>
          simp only [tokenK, token, Bool.false_eq_true, if_false] at h6
          obtain ⟨l4, h7, h8⟩ := Res.bind_eq_ok.1 h6
          simp only [Res.ok.injEq] at h8
          have := push_ok h7
          subst this
          exact other (by simp [token]) (by simp) h8.symm (fun items => rfl)
        | symbol c =>
          simp only [tokenK, token, Bool.false_eq_true, if_false] at h6
          obtain ⟨l4, h7, h8⟩ := Res.bind_eq_ok.1 h6
          simp only [Res.ok.injEq] at h8
          have := push_ok h7
          subst this
          exact other (by simp [token]) (by simp) h8.symm (fun items => rfl)
      · exact (hint g s rest hg hs hr et).elim

end Verif.C58
