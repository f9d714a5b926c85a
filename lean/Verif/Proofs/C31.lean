import Verif.Spec.C31

namespace Verif.C31
open Locks

/-- Number of threads below `n` that sleep on `p`. -/
def sleepers (n : Nat) (w : Nat → Option (Nat × Bool)) (p : Nat) : Nat :=
  (List.range n).countP (fun t => (w t).map (·.1) == some p)

theorem countP_congr' {l : List Nat} {f g : Nat → Bool} (h : ∀ x ∈ l, f x = g x) : l.countP f = l.countP g := by
  rw [List.countP_congr]
  intro x hx; rw [h x hx]

/-- Changing one member of a duplicate-free list. -/
theorem countP_set (l : List Nat) (t : Nat) (hn : l.Nodup) (ht : t ∈ l) (f g : Nat → Bool)
    (h : ∀ x, x ≠ t → f x = g x) :
    l.countP f + (if g t then 1 else 0) = l.countP g + (if f t then 1 else 0) := by
  induction l with
  | nil => simp at ht
  | cons a l ih =>
    rw [List.nodup_cons] at hn
    simp only [List.countP_cons]
    by_cases ha : a = t
    · subst ha
      have : l.countP f = l.countP g := countP_congr' (fun x hx => h x (by rintro rfl; exact hn.1 hx))
      omega
    · have := ih hn.2 (by rcases List.mem_cons.1 ht with h | h; exact absurd h.symm ha; exact h)
      have h1 := h a ha
      rw [h1]
      omega

theorem sleepers_set (n : Nat) (w : Nat → Option (Nat × Bool)) (t : Nat) (ht : t < n) (v : Option (Nat × Bool)) (p : Nat) :
    sleepers n (fun u => if u = t then v else w u) p + (if (w t).map (·.1) = some p then 1 else 0) =
      sleepers n w p + (if v.map (·.1) = some p then 1 else 0) := by
  have := countP_set (List.range n) t List.nodup_range (List.mem_range.2 ht)
    (fun u => ((if u = t then v else w u).map (·.1) == some p)) (fun u => ((w u).map (·.1) == some p))
    (by intro x hx; simp [hx])
  simpa [sleepers] using this

theorem sleepers_broadcast (n : Nat) (w : Nat → Option (Nat × Bool)) (p : Nat) :
    sleepers n (fun t => (w t).map fun x => (x.1, true)) p = sleepers n w p := by
  unfold sleepers
  congr 1
  funext t
  dsimp only
  cases w t <;> rfl

theorem sleepers_pos (n : Nat) (w : Nat → Option (Nat × Bool)) (p t : Nat) (b : Bool) (ht : t < n)
    (h : w t = some (p, b)) : 0 < sleepers n w p := by
  unfold sleepers
  rw [List.countP_pos_iff]
  exact ⟨t, List.mem_range.2 ht, by simp [h]⟩

/-- Facts that hold with nesting as well. -/
structure Base (n : Nat) (s : Locks) : Prop where
  inside : ∀ t, n ≤ t → s.wait t = none
  pending : ∀ p, (s.lock p).pending = sleepers n s.wait p
  free : ∀ t p, s.wait t = some (p, false) → (s.lock p).locker ≠ none
  notown : ∀ t p b, s.wait t = some (p, b) → (s.lock p).locker ≠ some t

theorem base_init (n : Nat) : Base n Locks.init where
  inside := by intro t _; rfl
  pending := by
    intro p
    have : sleepers n Locks.init.wait p = 0 := by
      unfold sleepers
      rw [List.countP_eq_zero]
      intro t _; simp [Locks.init]
    rw [this]; rfl
  free := by intro t p h; simp [Locks.init] at h
  notown := by intro t p b h; simp [Locks.init] at h

theorem base_attempt {n s} (t p : Nat) (ht : t < n) (c : Bool)
    (hin : ∀ t, n ≤ t → s.wait t = none)
    (hw : s.wait t = none ∨ ∃ b, s.wait t = some (p, b))
    (hpend : ∀ q, (s.lock q).pending + ((if c = true ∧ q = p then 1 else 0 : Nat) : Int) = sleepers n s.wait q)
    (hc : c = true ↔ s.wait t ≠ none)
    (hfree : ∀ u q, u ≠ t → s.wait u = some (q, false) → (s.lock q).locker ≠ none)
    (hnot : ∀ u q b, u ≠ t → s.wait u = some (q, b) → (s.lock q).locker ≠ some u)
    (hself : (s.lock p).locker ≠ some t) :
    Base n (attempt s t p).1 := by
  have hset : ∀ v q, sleepers n (s.setWait t v) q + (if (s.wait t).map (·.1) = some q then 1 else 0) =
      sleepers n s.wait q + (if v.map (·.1) = some q then 1 else 0) := sleepers_set n s.wait t ht
  have hwt : ∀ q, ((s.wait t).map (·.1) = some q) ↔ (c = true ∧ q = p) := by
    intro q
    rcases hw with h | ⟨b, h⟩
    · have : c = false := by
        cases c with
        | false => rfl
        | true => exact absurd h (hc.1 rfl)
      simp [h, this]
    · have : c = true := hc.2 (by rw [h]; simp)
      simp [h, this, eq_comm]
  unfold attempt
  cases hl : (s.lock p).locker with
  | none =>
    dsimp only
    refine ⟨?_, ?_, ?_, ?_⟩
    · intro u hu; dsimp only [setWait]; rw [if_neg (by omega)]; exact hin u hu
    · intro q
      have h1 := hset none q
      have h2 := hpend q
      simp only [hwt q] at h1
      simp only [Option.map_none, reduceCtorEq, if_false] at h1
      have h3 : (setLock s p ⟨some t, 0, (s.lock p).pending⟩ q).pending = (s.lock q).pending := by
        unfold setLock; split
        · rename_i e; rw [e]
        · rfl
      dsimp only
      rw [h3]
      omega
    · intro u q hu
      dsimp only [setWait, setLock] at hu ⊢
      split at hu
      · cases hu
      · rename_i hut
        split
        · simp
        · exact hfree u q hut hu
    · intro u q b hu
      dsimp only [setWait, setLock] at hu ⊢
      split at hu
      · cases hu
      · rename_i hut
        split
        · simp only [ne_eq, Option.some.injEq]; exact fun e => hut e.symm
        · exact hnot u q b hut hu
  | some v =>
    dsimp only
    refine ⟨?_, ?_, ?_, ?_⟩
    · intro u hu; dsimp only [setWait]; rw [if_neg (by omega)]; exact hin u hu
    · intro q
      have h1 := hset (some (p, false)) q
      have h2 := hpend q
      simp only [hwt q] at h1
      simp only [Option.map_some, Option.some.injEq] at h1
      have h3 : (setLock s p { s.lock p with pending := (s.lock p).pending + 1 } q).pending =
          (s.lock q).pending + ((if p = q then 1 else 0 : Nat) : Int) := by
        unfold setLock
        by_cases e : q = p
        · rw [if_pos e, e]; simp
        · rw [if_neg e, if_neg (fun e' => e e'.symm)]; simp
      dsimp only
      rw [h3]
      omega
    · intro u q hu
      dsimp only [setWait, setLock] at hu ⊢
      split at hu
      · cases hu; simp [hl]
      · rename_i hut
        have := hfree u q hut hu
        split
        · rename_i e; subst e; exact this
        · exact this
    · intro u q b hu
      dsimp only [setWait, setLock] at hu ⊢
      split at hu
      · rename_i hut
        cases hu; subst hut; simpa using hself
      · rename_i hut
        have := hnot u q b hut hu
        split
        · rename_i e; subst e; exact this
        · exact this

theorem base_lock {n s} (h : Base n s) (t p : Nat) (ht : t < n) (hw : s.wait t = none) :
    Base n (lockage_lock s t p).1 := by
  unfold lockage_lock
  split
  · rename_i hl
    refine ⟨h.inside, ?_, ?_, ?_⟩
    · intro q
      have := h.pending q
      dsimp only [setLock]
      split
      · rename_i e; subst e; exact this
      · exact this
    · intro u q hu
      have := h.free u q hu
      dsimp only [setLock]
      split
      · rename_i e; subst e; exact this
      · exact this
    · intro u q b hu
      have := h.notown u q b hu
      dsimp only [setLock]
      split
      · rename_i e; subst e; exact this
      · exact this
  · rename_i hl
    refine base_attempt t p ht false h.inside (.inl hw) ?_ (by simp [hw]) (fun u q _ => h.free u q)
      (fun u q b _ => h.notown u q b) hl
    intro q; simpa using h.pending q

theorem base_wake {n s} (h : Base n s) (t p : Nat) (b : Bool) (hw : s.wait t = some (p, b)) :
    Base n (wake s t).1 := by
  have ht : t < n := by
    rcases Nat.lt_or_ge t n with h1 | h1
    · exact h1
    · have := h.inside t h1; rw [hw] at this; cases this
  unfold wake
  rw [hw]
  dsimp only
  have hlk : ∀ q, (s.setLock p { s.lock p with pending := (s.lock p).pending - 1 } q).locker
      = (s.lock q).locker := by
    intro q
    dsimp only [setLock]
    split
    · rename_i e; subst e; rfl
    · rfl
  refine base_attempt t p ht true h.inside (.inr ⟨b, hw⟩) ?_ (by simp [hw]) ?_ ?_ ?_
  · intro q
    have := h.pending q
    dsimp only [setLock]
    by_cases e : q = p
    · subst e; simp; omega
    · simp [e, this]
  · intro u q _ hu hn
    dsimp only at hn; rw [hlk] at hn
    exact h.free u q hu hn
  · intro u q b' _ hu hn
    dsimp only at hn; rw [hlk] at hn
    exact h.notown u q b' hu hn
  · dsimp only; rw [hlk]; exact h.notown t p b hw

theorem base_unlock {n s} (h : Base n s) (p : Nat) : Base n (lockage_unlock s p) := by
  unfold lockage_unlock
  dsimp only
  split
  · refine ⟨h.inside, ?_, ?_, ?_⟩
    · intro q
      have := h.pending q
      dsimp only [setLock]
      split
      · rename_i e; subst e; exact this
      · exact this
    · intro u q hu
      have := h.free u q hu
      dsimp only [setLock]
      split
      · rename_i e; subst e; exact this
      · exact this
    · intro u q b hu
      have := h.notown u q b hu
      dsimp only [setLock]
      split
      · rename_i e; subst e; exact this
      · exact this
  · have hpend : ∀ q, (setLock s p ⟨none, 0, (s.lock p).pending⟩ q).pending = sleepers n s.wait q := by
      intro q
      have := h.pending q
      dsimp only [setLock]
      split
      · rename_i e; subst e; exact this
      · exact this
    split
    · refine ⟨?_, ?_, ?_, ?_⟩
      · intro u hu; dsimp only [broadcast]; rw [h.inside u hu]; rfl
      · intro q
        dsimp only [broadcast]
        rw [sleepers_broadcast]
        exact hpend q
      · intro u q hu
        dsimp only [broadcast] at hu
        cases hwu : s.wait u with
        | none => rw [hwu] at hu; cases hu
        | some x => rw [hwu] at hu; cases hu
      · intro u q b hu
        dsimp only [broadcast, setLock] at hu ⊢
        cases hwu : s.wait u with
        | none => rw [hwu] at hu; cases hu
        | some x =>
          rw [hwu] at hu
          simp only [Option.map_some, Option.some.injEq, Prod.mk.injEq] at hu
          split
          · simp
          · exact h.notown u q x.2 (by rw [hwu, ← hu.1])
    · rename_i hno
      refine ⟨h.inside, hpend, ?_, ?_⟩
      · intro u q hu
        dsimp only [setLock] at hu ⊢
        split
        · rename_i e
          subst e
          exfalso
          have hun : u < n := by
            rcases Nat.lt_or_ge u n with h1 | h1
            · exact h1
            · have := h.inside u h1; rw [hu] at this; cases this
          have h1 := sleepers_pos n s.wait q u false hun hu
          have h2 := h.pending q
          omega
        · exact h.free u q hu
      · intro u q b hu
        dsimp only [setLock] at hu ⊢
        split
        · simp
        · exact h.notown u q b hu

/-- Without nesting: the locker is the only thread with a depth, of one. -/
structure Inv (n : Nat) (s : St) : Prop where
  base : Base n s.locks
  holder : ∀ t p, (s.locks.lock p).locker = some t ↔ s.depth t p = 1
  atmost : ∀ t p, s.depth t p ≤ 1
  refs : ∀ p, (s.locks.lock p).refs = 0

theorem inv_init (n : Nat) : Inv n init where
  base := base_init n
  holder := by intro t p; simp [init, Locks.init]
  atmost := by intro t p; simp [init]
  refs := by intro p; rfl

theorem inv_attempt {n : Nat} {l : Locks} {d : Nat → Nat → Nat} (t p : Nat)
    (holder : ∀ t p, (l.lock p).locker = some t ↔ d t p = 1) (atmost : ∀ t p, d t p ≤ 1)
    (refs : ∀ p, (l.lock p).refs = 0) (hb : Base n (attempt l t p).1) :
    Inv n ⟨(attempt l t p).1, if (attempt l t p).2 then bump d t p (· + 1) else d⟩ := by
  unfold attempt at *
  cases hl : (l.lock p).locker with
  | none =>
    rw [hl] at hb
    simp only [if_true] at hb ⊢
    have hz : ∀ u, d u p = 0 := by
      intro u
      have h1 := atmost u p
      have h2 := holder u p
      rw [hl] at h2
      have : d u p ≠ 1 := fun e => by have := h2.2 e; cases this
      omega
    refine ⟨hb, ?_, ?_, ?_⟩
    · intro u q
      dsimp only [setLock, bump]
      by_cases hq : q = p
      · subst hq
        rw [if_pos rfl]
        by_cases hu : u = t
        · subst hu; simp [hz]
        · rw [if_neg (by simp [hu]), hz u]
          simp; exact fun e => hu e.symm
      · rw [if_neg hq, if_neg (by simp [hq])]
        exact holder u q
    · intro u q
      dsimp only [bump]
      split
      · rename_i e; rw [e.1, e.2, hz t]; omega
      · exact atmost u q
    · intro q
      dsimp only [setLock]
      split
      · rfl
      · exact refs q
  | some v =>
    rw [hl] at hb
    simp only [Bool.false_eq_true, if_false] at hb ⊢
    refine ⟨hb, ?_, atmost, ?_⟩
    · intro u q
      dsimp only [setLock]
      split
      · rename_i e; subst e; exact holder u q
      · exact holder u q
    · intro q
      dsimp only [setLock]
      split
      · exact refs p
      · exact refs q

theorem inv_step {n s s'} (h : Inv n s) (e : Ev) (hs : step n false s e = some s') : Inv n s' := by
  cases e with
  | lock t p =>
    simp only [step] at hs
    split at hs
    · rename_i hc
      obtain ⟨h1, h2, h3⟩ := hc
      have h4 : s.depth t p = 0 := by simpa using h3
      have hne : (s.locks.lock p).locker ≠ some t := by
        intro e; rw [h.holder] at e; omega
      have hb := base_lock h.base t p h2 h1
      unfold lockage_lock at hs hb
      rw [if_neg hne] at hs hb
      cases hs
      exact inv_attempt t p h.holder h.atmost h.refs hb
    · cases hs
  | wake t =>
    simp only [step] at hs
    cases hw : s.locks.wait t with
    | none => rw [hw] at hs; cases hs
    | some x =>
      obtain ⟨p, b⟩ := x
      rw [hw] at hs
      dsimp only at hs
      have hb := base_wake h.base t p b hw
      unfold wake at hs hb
      rw [hw] at hs hb
      dsimp only at hs hb
      cases hs
      refine inv_attempt t p ?_ h.atmost ?_ hb
      · intro u q
        dsimp only [setLock]
        split
        · rename_i e; subst e; exact h.holder u q
        · exact h.holder u q
      · intro q
        dsimp only [setLock]
        split
        · exact h.refs p
        · exact h.refs q
  | unlock t p =>
    simp only [step] at hs
    split at hs
    · rename_i hc
      obtain ⟨h1, h2⟩ := hc
      cases hs
      have h3 : s.depth t p = 1 := by have := h.atmost t p; omega
      have hown := (h.holder t p).2 h3
      have hb := base_unlock h.base p
      have hr := h.refs p
      have hlk : ∀ q, (lockage_unlock s.locks p).lock q =
          if q = p then ⟨none, 0, (s.locks.lock p).pending⟩ else s.locks.lock q := by
        intro q
        unfold lockage_unlock
        dsimp only
        rw [if_neg (by omega)]
        split <;> rfl
      refine ⟨hb, ?_, ?_, ?_⟩
      · intro u q
        dsimp only [bump]
        rw [hlk]
        by_cases hq : q = p
        · subst hq
          rw [if_pos rfl]
          by_cases hu : u = t
          · subst hu; simp [h3]
          · rw [if_neg (by simp [hu])]
            simp only [reduceCtorEq, false_iff]
            intro e
            have := (h.holder u q).2 e
            rw [hown] at this
            exact hu (Option.some.inj this).symm
        · rw [if_neg hq, if_neg (by simp [hq])]
          exact h.holder u q
      · intro u q
        dsimp only [bump]
        have := h.atmost u q
        split <;> omega
      · intro q
        rw [hlk]
        split
        · rfl
        · exact h.refs q
    · cases hs

theorem inv_run {n} (es : List Ev) : ∀ s s', Inv n s → run n false s es = some s' → Inv n s' := by
  induction es with
  | nil => intro s s' h e; cases e; exact h
  | cons e es ih =>
    intro s s' h hr
    rw [run] at hr
    cases hs : step n false s e with
    | none => rw [hs] at hr; cases hr
    | some s1 => rw [hs] at hr; exact ih s1 s' (inv_step h e hs) hr

end Verif.C31
