import Verif.Spec.C50

namespace Verif.C50
open Exc

/-- The list linked from `p`: addresses (below `b`, falling) and functions. -/
def Chain (g : Nat → GuardS) : Nat → Option Nat → List (Nat × Nat) → Prop
  | _, p, [] => p = none
  | b, p, (a, f) :: l => p = some a ∧ a < b ∧ (g a).fn = some f ∧ Chain g a (g a).prev l

theorem Chain.congr {g g' : Nat → GuardS} : ∀ {l b p}, Chain g b p l → (∀ x ∈ l, g' x.1 = g x.1) → Chain g' b p l := by
  intro l
  induction l with
  | nil => intro b p h _; exact h
  | cons x l ih =>
    intro b p h hg
    obtain ⟨a, f⟩ := x
    obtain ⟨h1, h2, h3, h4⟩ := h
    have he := hg (a, f) (by simp)
    dsimp only at he
    exact ⟨h1, h2, by rw [he]; exact h3, by rw [he]; exact ih h4 (fun x hx => hg x (by simp [hx]))⟩

theorem Chain.lt {g : Nat → GuardS} : ∀ {l b p}, Chain g b p l → ∀ x ∈ l, x.1 < b := by
  intro l
  induction l with
  | nil => intro b p _ x hx; simp at hx
  | cons y l ih =>
    intro b p h x hx
    obtain ⟨a, f⟩ := y
    obtain ⟨h1, h2, h3, h4⟩ := h
    rcases List.mem_cons.1 hx with rfl | hx
    · exact h2
    · have := ih h4 x hx; omega

theorem Chain.mono {g : Nat → GuardS} {l b b' p} (h : Chain g b p l) (hb : b ≤ b') : Chain g b' p l := by
  cases l with
  | nil => exact h
  | cons x l =>
    obtain ⟨a, f⟩ := x
    obtain ⟨h1, h2, h3, h4⟩ := h
    exact ⟨h1, by omega, h3, h4⟩

theorem Chain.drop {g : Nat → GuardS} : ∀ {as b p} {outs : List (Nat × Nat)}, Chain g b p (as ++ outs) → ∃ q, Chain g b q outs ∧
    (∀ q', Chain g b q' outs → q' = q) := by
  intro as
  induction as with
  | nil =>
    intro b p outs h
    refine ⟨p, h, ?_⟩
    intro q' hq
    cases outs with
    | nil => rw [show p = none from h]; exact hq
    | cons x l => obtain ⟨a, f⟩ := x; rw [h.1]; exact hq.1
  | cons x as ih =>
    intro b p outs h
    obtain ⟨a, f⟩ := x
    obtain ⟨h1, h2, h3, h4⟩ := h
    obtain ⟨q, hq1, hq2⟩ := ih h4
    refine ⟨q, hq1.mono (by omega), ?_⟩
    intro q' hq'
    cases outs with
    | nil => rw [show q' = none from hq', show q = none from hq1]
    | cons x l => obtain ⟨a', f'⟩ := x; rw [hq'.1, hq1.1]

theorem Chain.length {g : Nat → GuardS} : ∀ {l b p}, Chain g b p l → l.length ≤ b := by
  intro l
  induction l with
  | nil => intros; simp
  | cons x l ih =>
    intro b p h
    obtain ⟨a, f⟩ := x
    obtain ⟨h1, h2, h3, h4⟩ := h
    have := ih h4
    simp only [List.length_cons]; omega

def fns (l : List (Nat × Nat)) : List GObs := l.map (fun x => .ran x.2)

theorem execute_ok : ∀ (l : List (Nat × Nat)) (s : Exc) (b : Nat) (p : Option Nat) (fuel : Nat), Chain s.guards b p l → l.length ≤ fuel →
    ∃ s', s.execute_guards fuel p = .ok s' ∧ s'.log = s.log ++ fns l ∧ s'.frames = s.frames ∧ s'.next = s.next ∧
      (∀ a, (∀ x ∈ l, x.1 ≠ a) → s'.guards a = s.guards a) := by
  intro l
  induction l with
  | nil =>
    intro s b p fuel h _
    rw [show p = none from h]
    exact ⟨s, by cases fuel <;> rfl, by simp [fns], rfl, rfl, fun _ _ => rfl⟩
  | cons x l ih =>
    intro s b p fuel h hf
    obtain ⟨a, f⟩ := x
    obtain ⟨h1, h2, h3, h4⟩ := h
    subst h1
    cases fuel with
    | zero => simp at hf
    | succ fuel =>
      unfold execute_guards
      rw [h3]
      dsimp only
      have hch : Chain ((s.say (.ran f)).setGuard a { s.guards a with fn := none }).guards a (s.guards a).prev l := by
        refine h4.congr ?_
        intro x hx
        have := h4.lt x hx
        dsimp only [setGuard, say]
        rw [if_neg (by omega)]
      obtain ⟨s', g1, g2, g3, g4, g5⟩ := ih _ a _ fuel hch (by simpa using hf)
      refine ⟨s', g1, ?_, g3, g4, ?_⟩
      · rw [g2]; simp [setGuard, say, fns]
      · intro c hc
        rw [g5 c (fun x hx => hc x (by simp [hx]))]
        have := hc (a, f) (by simp)
        dsimp only [setGuard, say]
        rw [if_neg (fun e => this e.symm)]

/-- The active guards of a block among those it declared. -/
def Live (g : Nat → GuardS) (decl : List Nat) (as : List (Nat × Nat)) : Prop :=
  decl.filter (fun a => (g a).fn.isSome) = as.map (·.1)

theorem Live.congr {g g' : Nat → GuardS} {decl as} (h : Live g decl as) (hg : ∀ a ∈ decl, (g' a).fn.isSome = (g a).fn.isSome) :
    Live g' decl as := by
  unfold Live at *
  rw [← h]
  apply List.filter_congr
  intro a ha
  exact hg a ha

theorem runners_ok : ∀ (decl : List Nat) (s : Exc) (as outs : List (Nat × Nat)) (e : ExcS) (es : List ExcS) (b : Nat), s.frames = e :: es →
    Chain s.guards b e.stack (as ++ outs) → Live s.guards decl as → decl.Nodup →
    ∃ s' q, s.runners decl = .ok s' ∧ s'.log = s.log ++ fns as ∧ s'.frames = { e with stack := q } :: es ∧ s'.next = s.next ∧
      Chain s'.guards b q outs ∧ (∀ a, (∀ x ∈ as, x.1 ≠ a) → s'.guards a = s.guards a) := by
  intro decl
  induction decl with
  | nil =>
    intro s as outs e es b hf hc hl _
    have : as = [] := by
      unfold Live at hl
      simpa using hl.symm
    subst this
    exact ⟨s, e.stack, rfl, by simp [fns], hf, rfl, hc, fun _ _ => rfl⟩
  | cons a decl ih =>
    intro s as outs e es b hf hc hl hnd
    have hnd' := List.nodup_cons.1 hnd
    unfold runners
    cases hfn : (s.guards a).fn with
    | none =>
      have hl' : Live s.guards decl as := by
        unfold Live at *
        rw [List.filter_cons] at hl
        simp only [hfn, Option.isSome_none, Bool.false_eq_true, if_false] at hl
        exact hl
      have : s.guard_runner a = .ok s := by unfold guard_runner; rw [hfn]
      rw [this]
      exact ih s as outs e es b hf hc hl' hnd'.2
    | some f =>
      unfold Live at hl
      rw [List.filter_cons] at hl
      simp only [hfn, Option.isSome_some, if_true] at hl
      cases as with
      | nil => simp at hl
      | cons x as =>
        obtain ⟨a', f'⟩ := x
        simp only [List.map_cons, List.cons.injEq] at hl
        obtain ⟨e1, hl⟩ := hl
        subst e1
        obtain ⟨h1, h2, h3, h4⟩ := hc
        rw [hfn] at h3
        cases h3
        have hr : s.guard_runner a = .ok (({ s with frames := { e with stack := (s.guards a).prev } :: es }.say (.ran f)).setGuard a
            { s.guards a with fn := none }) := by
          unfold guard_runner guard_pop
          rw [hfn, hf]
          dsimp only
          rw [h1]
          rfl
        rw [hr]
        have hne : ∀ c, c ≠ a → (({ s with frames := { e with stack := (s.guards a).prev } :: es }.say (.ran f)).setGuard a
            { s.guards a with fn := none }).guards c = s.guards c := by
          intro c hc
          dsimp only [setGuard, say]
          rw [if_neg hc]
        obtain ⟨s', q, g1, g2, g3, g4, g5, g6⟩ := ih (({ s with frames := { e with stack := (s.guards a).prev } :: es }.say (.ran f)).setGuard a
            { s.guards a with fn := none }) as outs { e with stack := (s.guards a).prev } es a rfl
          (by
            refine h4.congr ?_
            intro x hx
            have := h4.lt x hx
            exact hne _ (by omega))
          (by
            refine Live.congr hl ?_
            intro c hc
            rw [hne c (fun e => hnd'.1 (e ▸ hc))]) hnd'.2
        refine ⟨s', q, g1, ?_, g3, g4, g5.mono (by omega), ?_⟩
        · rw [g2]; simp [setGuard, say, fns]
        · intro c hc
          rw [g6 c (fun x hx => hc x (by simp [hx]))]
          exact hne c (fun e => hc (a, f) (by simp) e.symm)

theorem fns_append (a b : List (Nat × Nat)) : fns (a ++ b) = fns a ++ fns b := by unfold fns; rw [List.map_append]

theorem gs_fns (as : List (Nat × Nat)) : (as.map (·.2)).map GObs.ran = fns as := by unfold fns; rw [List.map_map]; rfl

/-- The state of a block in the middle of a run. -/
structure At (s : Exc) (decl : List Nat) (as outs : List (Nat × Nat)) (e : ExcS) (es : List ExcS) : Prop where
  frames : s.frames = e :: es
  chain : Chain s.guards s.next e.stack (as ++ outs)
  live : Live s.guards decl as
  nodup : decl.Nodup
  below : ∀ a ∈ decl, a < s.next
  apart : ∀ a ∈ decl, ∀ x ∈ outs, x.1 ≠ a

/-- How a block ends. -/
structure Ends (s s' : Exc) (o : Bool) (l : List GObs) (as outs : List (Nat × Nat)) (e : ExcS) (es : List ExcS) : Prop where
  log : s'.log = s.log ++ l ++ (if o then fns outs else [])
  next : s.next ≤ s'.next
  frames : if o then s'.frames = ⟨true, none⟩ :: es
    else ∃ q, s'.frames = { e with stack := q } :: es ∧ Chain s'.guards s'.next q outs
  guards : ∀ a, a < s.next → (∀ x ∈ as, x.1 ≠ a) → (o = true → ∀ x ∈ outs, x.1 ≠ a) → s'.guards a = s.guards a

theorem as_in_decl {s : Exc} {decl : List Nat} {as outs : List (Nat × Nat)} {e es} (h : At s decl as outs e es) : ∀ x ∈ as, x.1 ∈ decl := by
  intro x hx
  have h1 : x.1 ∈ as.map (·.1) := List.mem_map.2 ⟨x, hx, rfl⟩
  rw [← h.live] at h1
  exact (List.mem_filter.1 h1).1

/-- After an inner block that ended normally, the outer block goes on. -/
theorem at_after {s s' : Exc} {decl : List Nat} {as outs : List (Nat × Nat)} {e es q} (h : At s decl as outs e es)
    (hf : s'.frames = { e with stack := q } :: es) (hc : Chain s'.guards s'.next q (as ++ outs)) (hn : s.next ≤ s'.next)
    (hg : ∀ a, a < s.next → s'.guards a = s.guards a) : At s' decl as outs { e with stack := q } es where
  frames := hf
  chain := hc
  live := h.live.congr (fun a ha => by rw [hg a (h.below a ha)])
  nodup := h.nodup
  below := fun a ha => Nat.lt_of_lt_of_le (h.below a ha) hn
  apart := h.apart

theorem exec_ok : ∀ (p : GProg) (s : Exc) (decl : List Nat) (as outs : List (Nat × Nat)) (e : ExcS) (es : List ExcS) (l : List GObs) (o : Bool),
    At s decl as outs e es → meaning p (as.map (·.2)) = some (l, o) →
    ∃ s', exec p s decl = .ok (s', o) ∧ Ends s s' o l as outs e es := by
  intro p
  induction p with
  | done =>
    intro s decl as outs e es l o h hm
    unfold meaning at hm
    rw [gs_fns] at hm
    cases hm
    obtain ⟨s', q, h1, h2, h3, h4, h5, h6⟩ := runners_ok decl s as outs e es s.next h.frames h.chain h.live h.nodup
    unfold exec
    rw [h1]
    refine ⟨s', rfl, by rw [h2]; simp, by omega, ?_, fun a _ ha _ => h6 a ha⟩
    exact ⟨q, h3, by rw [h4]; exact h5⟩
  | act i k ih =>
    intro s decl as outs e es l o h hm
    unfold meaning at hm
    cases hk : meaning k (as.map (·.2)) with
    | none => rw [hk] at hm; cases hm
    | some r =>
      obtain ⟨l', o'⟩ := r
      rw [hk] at hm
      cases hm
      unfold exec
      obtain ⟨s', g1, g2⟩ := ih (s.say (.did i)) decl as outs e es l' o'
        ⟨h.frames, h.chain, h.live, h.nodup, h.below, h.apart⟩ hk
      refine ⟨s', g1, ?_, g2.next, g2.frames, g2.guards⟩
      rw [g2.log]; simp [say]
  | guard f k ih =>
    intro s decl as outs e es l o h hm
    unfold meaning at hm
    unfold exec
    have hg : s.guard_as f = .ok (({ s with frames := { e with stack := some s.next } :: es, next := s.next + 1 }).setGuard s.next ⟨some f, e.stack⟩,
      s.next) := by
      unfold guard_as; rw [h.frames]
    rw [hg]
    have hne : ∀ a, a ≠ s.next → ((({ s with frames := { e with stack := some s.next } :: es, next := s.next + 1 } : Exc).setGuard s.next ⟨some f, e.stack⟩).guards a) = s.guards a := by
      intro a ha; dsimp only [setGuard]; rw [if_neg ha]
    have heq : ((({ s with frames := { e with stack := some s.next } :: es, next := s.next + 1 } : Exc).setGuard s.next ⟨some f, e.stack⟩).guards s.next) = ⟨some f, e.stack⟩ := by
      dsimp only [setGuard]; rw [if_pos rfl]
    have hold : ∀ x ∈ as ++ outs, x.1 ≠ s.next := by
      intro x hx; have := h.chain.lt x hx; omega
    obtain ⟨s', g1, g2⟩ := ih (({ s with frames := { e with stack := some s.next } :: es, next := s.next + 1 } : Exc).setGuard s.next ⟨some f, e.stack⟩) (s.next :: decl) ((s.next, f) :: as) outs { e with stack := some s.next } es l o
      ⟨rfl, ⟨rfl, Nat.lt_succ_self _, by rw [heq], by
          rw [heq]; exact h.chain.congr (fun x hx => hne _ (hold x hx))⟩, by
        unfold Live
        rw [List.filter_cons, heq]
        simp only [Option.isSome_some, if_true, List.map_cons, List.cons.injEq, true_and]
        have := h.live.congr (g' := (({ s with frames := { e with stack := some s.next } :: es, next := s.next + 1 } : Exc).setGuard s.next ⟨some f, e.stack⟩).guards)
          (fun a ha => by rw [hne a (by have := h.below a ha; omega)])
        exact this, by
        refine List.nodup_cons.2 ⟨?_, h.nodup⟩
        intro hm; have := h.below _ hm; omega, by
        intro a ha
        rcases List.mem_cons.1 ha with rfl | ha
        · exact Nat.lt_succ_self _
        · exact Nat.lt_succ_of_lt (h.below a ha), by
        intro a ha x hx
        rcases List.mem_cons.1 ha with rfl | ha
        · exact hold x (by simp [hx])
        · exact h.apart a ha x hx⟩ hm
    refine ⟨s', g1, ⟨g2.log, ?_, g2.frames, ?_⟩⟩
    · have := g2.next; dsimp only [setGuard] at this; omega
    · intro a ha h1 h2
      rw [g2.guards a (by dsimp only [setGuard]; omega) (by
        intro x hx
        rcases List.mem_cons.1 hx with rfl | hx
        · dsimp only; omega
        · exact h1 x hx) h2]
      exact hne a (by omega)
  | unguard k ih =>
    intro s decl as outs e es l o h hm
    cases as with
    | nil => unfold meaning at hm; cases hm
    | cons x as =>
      obtain ⟨a, f⟩ := x
      simp only [List.map_cons] at hm
      unfold meaning at hm
      obtain ⟨h1, h2, h3, h4⟩ := h.chain
      have hu : s.unguard = .ok ({ s with frames := { e with stack := (s.guards a).prev } :: es }.setGuard a { s.guards a with fn := none }) := by
        unfold unguard guard_pop
        rw [h.frames]
        dsimp only
        rw [h1]
        rfl
      unfold exec
      rw [hu]
      have hne : ∀ c, c ≠ a → (({ s with frames := { e with stack := (s.guards a).prev } :: es } : Exc).setGuard a { s.guards a with fn := none }).guards c = s.guards c := by
        intro c hc; dsimp only [setGuard]; rw [if_neg hc]
      have hlive := h.live
      unfold Live at hlive
      obtain ⟨s', g1, g2⟩ := ih (({ s with frames := { e with stack := (s.guards a).prev } :: es } : Exc).setGuard a { s.guards a with fn := none }) decl as outs { e with stack := (s.guards a).prev } es l o
        ⟨rfl, by
          have h5 : Chain (({ s with frames := { e with stack := (s.guards a).prev } :: es } : Exc).setGuard a { s.guards a with fn := none }).guards a (s.guards a).prev (as ++ outs) := by
            refine h4.congr ?_
            intro x hx
            have := h4.lt x hx
            exact hne _ (by omega)
          exact h5.mono (Nat.le_of_lt h2), by
          unfold Live
          have hsplit : decl.filter (fun c => ((({ s with frames := { e with stack := (s.guards a).prev } :: es } : Exc).setGuard a { s.guards a with fn := none }).guards c).fn.isSome)
              = (decl.filter (fun c => (s.guards c).fn.isSome)).filter (fun c => c != a) := by
            rw [List.filter_filter]
            apply List.filter_congr
            intro c _
            by_cases hc : c = a
            · subst hc; simp [setGuard]
            · rw [hne c hc]; simp [hc]
          rw [hsplit, hlive]
          rw [List.map_cons, List.filter_cons]
          simp only [bne_self_eq_false, Bool.false_eq_true, if_false]
          rw [List.filter_eq_self]
          intro c hc
          obtain ⟨x, hx, rfl⟩ := List.mem_map.1 hc
          have := h4.lt x (by simp [hx])
          simp; omega, h.nodup, h.below, h.apart⟩ hm
      refine ⟨s', g1, ⟨g2.log, g2.next, g2.frames, ?_⟩⟩
      intro c hc h5 h6
      rw [g2.guards c hc (fun x hx => h5 x (by simp [hx])) h6]
      exact hne c (fun e => h5 (a, f) (by simp) e.symm)
  | throw =>
    intro s decl as outs e es l o h hm
    unfold meaning at hm
    rw [gs_fns] at hm
    cases hm
    have hlen := h.chain.length
    obtain ⟨s', h1, h2, h3, h4, h5⟩ := execute_ok (as ++ outs) s s.next e.stack (s.next + 1) h.chain (by omega)
    unfold exec Exc.throw
    rw [h.frames]
    dsimp only
    rw [h1]
    refine ⟨_, rfl, ?_, by dsimp only; omega, ?_, ?_⟩
    · dsimp only; rw [h2, fns_append]; simp
    · simp
    · intro a _ h6 h7
      apply h5
      intro x hx
      rcases List.mem_append.1 hx with hx | hx
      · exact h6 x hx
      · exact h7 rfl x hx
  | block b k ihb ihk =>
    intro s decl as outs e es l o h hm
    unfold meaning at hm
    unfold exec
    cases hb : meaning b [] with
    | none => rw [hb] at hm; cases hm
    | some r =>
      obtain ⟨lb, ob⟩ := r
      rw [hb] at hm
      obtain ⟨s1, g1, g2⟩ := ihb s [] [] (as ++ outs) e es lb ob
        ⟨h.frames, h.chain, rfl, List.nodup_nil, by simp, by simp⟩ hb
      rw [g1]
      cases ob with
      | true =>
        dsimp only at hm
        cases hm
        refine ⟨s1, rfl, ?_, g2.next, g2.frames, ?_⟩
        · rw [g2.log]; simp only [if_true, fns_append, gs_fns, List.append_assoc]
        · intro a ha h1 h2
          apply g2.guards a ha (by simp)
          intro _ x hx
          rcases List.mem_append.1 hx with hx | hx
          · exact h1 x hx
          · exact h2 rfl x hx
      | false =>
        dsimp only at hm
        cases hk : meaning k (as.map (·.2)) with
        | none => rw [hk] at hm; cases hm
        | some r =>
          obtain ⟨lk, ok⟩ := r
          rw [hk] at hm
          cases hm
          have hfr := g2.frames
          simp only [Bool.false_eq_true, if_false] at hfr
          obtain ⟨q, hq1, hq2⟩ := hfr
          have hg : ∀ a, a < s.next → s1.guards a = s.guards a := fun a ha => g2.guards a ha (by simp) (by simp)
          obtain ⟨s2, k1, k2⟩ := ihk s1 decl as outs { e with stack := q } es lk ok (at_after h hq1 hq2 g2.next hg) hk
          refine ⟨s2, by rw [Res.bind_ok]; simpa using k1, ?_, Nat.le_trans g2.next k2.next, ?_, ?_⟩
          · rw [k2.log, g2.log]; simp [List.append_assoc]
          · exact k2.frames
          · intro a ha h1 h2
            rw [k2.guards a (Nat.lt_of_lt_of_le ha g2.next) h1 h2, hg a ha]
  | tryCatch b hd k ihb ihh ihk =>
    intro s decl as outs e es l o h hm
    unfold meaning at hm
    unfold exec
    cases hb : meaning b [] with
    | none => rw [hb] at hm; cases hm
    | some r =>
      obtain ⟨lb, ob⟩ := r
      rw [hb] at hm
      obtain ⟨s1, g1, g2⟩ := ihb s.enter [] [] [] ⟨false, none⟩ (e :: es) lb ob
        ⟨by unfold enter; rw [h.frames], rfl, rfl, List.nodup_nil, by simp, by simp⟩ hb
      rw [g1, Res.bind_ok]
      have hg : ∀ a, a < s.next → s1.guards a = s.guards a := fun a ha => g2.guards a ha (by simp) (by simp)
      have hnx : s.next ≤ s1.next := g2.next
      have hch : Chain s1.guards s1.next e.stack (as ++ outs) :=
        (h.chain.congr (fun x hx => hg _ (h.chain.lt x hx))).mono hnx
      have hlog : s1.log = s.log ++ lb := by
        have := g2.log
        cases ob <;> simpa [fns, enter] using this
      have hat : At { s1 with frames := e :: es } decl as outs e es :=
        at_after (s' := { s1 with frames := e :: es }) (q := e.stack) h rfl hch hnx hg
      have hfr := g2.frames
      cases ob with
      | false =>
        simp only [Bool.false_eq_true, if_false] at hfr
        obtain ⟨q, hq1, hq2⟩ := hfr
        have hlv : s1.leave = .ok ({ s1 with frames := e :: es }, false) := by unfold leave; rw [hq1]
        dsimp only
        rw [hlv, Res.bind_ok]
        dsimp only at hm ⊢
        cases hk : meaning k (as.map (·.2)) with
        | none => rw [hk] at hm; cases hm
        | some r =>
          obtain ⟨lk, ok⟩ := r
          rw [hk] at hm
          cases hm
          obtain ⟨s2, k1, k2⟩ := ihk _ decl as outs e es lk ok hat hk
          refine ⟨s2, by simpa using k1, ?_, Nat.le_trans hnx k2.next, k2.frames, ?_⟩
          · rw [k2.log]; dsimp only; rw [hlog]; simp [List.append_assoc]
          · intro a ha h1 h2
            rw [k2.guards a (Nat.lt_of_lt_of_le ha hnx) h1 h2]
            exact hg a ha
      | true =>
        simp only [if_true] at hfr
        have hlv : s1.leave = .ok ({ s1 with frames := e :: es }, true) := by unfold leave; rw [hfr]
        dsimp only
        rw [hlv, Res.bind_ok]
        dsimp only at hm ⊢
        rw [if_pos rfl]
        cases hh : meaning hd [] with
        | none => rw [hh] at hm; cases hm
        | some r =>
          obtain ⟨lh, oh⟩ := r
          rw [hh] at hm
          obtain ⟨s2, q1, q2⟩ := ihh { s1 with frames := e :: es } [] [] (as ++ outs) e es lh oh
            ⟨rfl, hch, rfl, List.nodup_nil, by simp, by simp⟩ hh
          rw [q1, Res.bind_ok]
          have hnx2 : s1.next ≤ s2.next := q2.next
          cases oh with
          | true =>
            dsimp only at hm ⊢
            cases hm
            refine ⟨s2, rfl, ?_, Nat.le_trans hnx hnx2, q2.frames, ?_⟩
            · rw [q2.log]; dsimp only; rw [hlog]; simp only [if_true, fns_append, gs_fns, List.append_assoc]
            · intro a ha h1 h2
              rw [q2.guards a (Nat.lt_of_lt_of_le ha hnx) (by simp) (by
                intro _ x hx
                rcases List.mem_append.1 hx with hx | hx
                · exact h1 x hx
                · exact h2 rfl x hx)]
              exact hg a ha
          | false =>
            dsimp only at hm ⊢
            cases hk : meaning k (as.map (·.2)) with
            | none => rw [hk] at hm; cases hm
            | some r =>
              obtain ⟨lk, ok⟩ := r
              rw [hk] at hm
              cases hm
              have hfr2 := q2.frames
              simp only [Bool.false_eq_true, if_false] at hfr2
              obtain ⟨q, hq1, hq2⟩ := hfr2
              have hg2 : ∀ a, a < s1.next → s2.guards a = s1.guards a := fun a ha => q2.guards a ha (by simp) (by simp)
              obtain ⟨s3, k1, k2⟩ := ihk s2 decl as outs { e with stack := q } es lk ok (at_after hat hq1 hq2 hnx2 hg2) hk
              refine ⟨s3, by simpa using k1, ?_, Nat.le_trans hnx (Nat.le_trans hnx2 k2.next), k2.frames, ?_⟩
              · rw [k2.log, q2.log]; dsimp only; rw [hlog]; simp [List.append_assoc]
              · intro a ha h1 h2
                rw [k2.guards a (Nat.lt_of_lt_of_le ha (Nat.le_trans hnx hnx2)) h1 h2, hg2 a (Nat.lt_of_lt_of_le ha hnx)]
                exact hg a ha

end Verif.C50
