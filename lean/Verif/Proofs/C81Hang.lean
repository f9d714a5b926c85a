import Verif.Proofs.C81Help

namespace Verif.C81
open Act

theorem run_inv {first : Bool} {n : Nat} {I : Room → Prop} (hI : ∀ s s' t b, t < n → I s → s.step first t b = .ok s' → I s')
    (sched : List (Nat × Bool)) : ∀ s s', I s → run first n s sched = .ok s' → I s' := by
  induction sched with
  | nil => intro s s' h hs; injection hs with hs; subst hs; exact h
  | cons e sched ih =>
    intro s s' h hs
    obtain ⟨t, b⟩ := e
    rw [run] at hs
    split at hs
    · rename_i ht
      split at hs
      · rename_i s1 h1; exact ih s1 s' (hI s s1 t b ht h h1) hs
      all_goals cases hs
    · exact ih s s' h hs

/-! Without a cache. -/

structure Bare (t : Nat) (r : List Deed) (s : Room) : Prop where
  cache : s.pool.cache = 0
  free : s.pool.free = 0
  rest : s.rest t = r
  asleep : s.asleep t ≠ none

theorem bare_push {s : Room} {t : Nat} {r : List Deed} (h : Bare t r s) (k : Nat) : Bare t r (s.give_back k) := by
  have gb := give_back_same s k
  refine ⟨(give_back_le s k).2.2.2.2.2.trans h.cache, ?_, by rw [gb.2.2.1]; exact h.rest, fun e => h.asleep ((gb.2.2.2.2.2.2 t).1 e)⟩
  unfold Room.give_back
  split
  · exact h.free
  · dsimp only [Pool.push]
    rw [h.cache, if_neg (by omega)]
    exact h.free

theorem bare_step {first : Bool} {p : Nat} {undo : List Act} {k0 : List Deed} {t : Nat} (s s' : Room) (u : Nat) (b : Bool)
    (h : Bare t (.page p undo :: k0) s) (hs : s.step first u b = .ok s') : Bare t (.page p undo :: k0) s' := by
  by_cases hut : u = t
  · subst hut
    unfold Room.step at hs
    rw [h.rest] at hs
    dsimp only at hs
    split at hs
    · rename_i e; exact absurd e h.asleep
    · split at hs
      · split at hs
        · rename_i hf; rw [h.free] at hf; omega
        · injection hs with hs; subst hs
          exact ⟨h.cache, h.free, h.rest, by simp [Room.set]⟩
      · injection hs with hs; subst hs; exact h
  · have hrt : ∀ k, Room.set s.rest u k t = .page p undo :: k0 := by
      intro k; simp only [Room.set]; rw [if_neg (fun e => hut e.symm)]; exact h.rest
    have hat : ∀ x, Room.set s.asleep u x t ≠ none := by
      intro k; simp only [Room.set]; rw [if_neg (fun e => hut e.symm)]; exact h.asleep
    unfold Room.step at hs
    cases hr : s.rest u with
    | nil => rw [hr] at hs; injection hs with hs; subst hs; exact h
    | cons d k =>
      rw [hr] at hs
      cases d with
      | lock a =>
        dsimp only at hs
        split at hs
        · injection hs with hs; subst hs
          refine ⟨h.cache, h.free, ?_, h.asleep⟩
          dsimp only
          split
          · exact hrt k
          · exact h.rest
        all_goals cases hs
      | page q undo' =>
        dsimp only at hs
        split at hs
        · split at hs
          · rename_i m hp
            injection hs with hs; subst hs
            unfold Pool.pop at hp
            rw [h.free, if_neg (by omega)] at hp
            split at hp
            · split at hp <;> cases hp
            · injection hp with hp; subst hp
              exact ⟨h.cache, rfl, hrt k, hat _⟩
          · injection hs with hs; subst hs
            exact ⟨h.cache, h.free, h.rest, hat _⟩
          · injection hs with hs; subst hs
            exact ⟨h.cache, h.free, hrt _, h.asleep⟩
        · split at hs
          · split at hs
            · rename_i hf; rw [h.free] at hf; omega
            · injection hs with hs; subst hs
              exact ⟨h.cache, h.free, h.rest, hat _⟩
          · injection hs with hs; subst hs; exact h
      | rotate q => injection hs with hs; subst hs; exact ⟨h.cache, h.free, hrt k, h.asleep⟩
      | fin => injection hs with hs; subst hs; exact ⟨h.cache, h.free, hrt k, h.asleep⟩
      | reset => injection hs with hs; subst hs; exact ⟨h.cache, rfl, hrt k, h.asleep⟩
      | free q =>
        injection hs with hs; subst hs
        have := bare_push h (s.old q)
        exact ⟨this.cache, this.free, hrt k, this.asleep⟩
      | drop q =>
        injection hs with hs; subst hs
        have := bare_push (bare_push h (s.mem q)) (s.old q)
        exact ⟨this.cache, this.free, hrt k, this.asleep⟩

/-! One partition. -/

/-- A script that does nothing to partition 1 before it takes the access lock of it, and never asks for pages. -/
def tame : List Deed → Prop
  | [] => True
  | .lock (.take l) :: k => l = 3 ∨ tame k
  | .lock (.give l) :: k => l ≠ 3 ∧ tame k
  | .lock _ :: k => tame k
  | .rotate p :: k => p ≠ 1 ∧ tame k
  | .free _ :: k => tame k
  | .fin :: k => tame k
  | _ :: _ => False

theorem tame_refresh (p : Nat) (k : List Deed) (h : tame k) : tame (Deed.refresh_run p ++ k) := by
  by_cases e : p = 1
  · subst e
    simp [Deed.refresh_run, Deed.locks, engine_lock, engine_unlock, serviceOf, accessOf, tame]
  · have h1 : 2 * p + 1 ≠ 3 := by omega
    have h2 : 2 * p ≠ 3 := by omega
    simp only [Deed.refresh_run, Deed.locks, engine_lock, engine_unlock, serviceOf, accessOf, tame, List.map_cons, List.map_nil,
      List.cons_append, List.nil_append]
    exact .inr (.inr ⟨e, h1, .inr ⟨h1, h2, h⟩⟩)

theorem tame_refreshes (ps : List Nat) : tame (ps.flatMap Deed.refresh_run) := by
  induction ps with
  | nil => trivial
  | cons p ps ih => rw [List.flatMap_cons]; exact tame_refresh p _ ih

/-- What remains of the second write. -/
def stuck : List Deed := [.page 1 [.give 3, .release], .lock (.give 3), .lock .release, .fin]

structure Stuck (s : Room) : Prop where
  rest : s.rest 0 = stuck
  asleep : s.asleep 0 ≠ none
  free : s.pool.free = 0
  lock : (s.locks.lock 3).locker = some 0
  wait0 : s.locks.wait 0 = none
  old : ∀ p, s.old p = 0
  mem : ∀ p, p ≠ 1 → s.mem p = 0
  wait : ∀ l w, s.locks.wait 1 = some (l, w) → ∃ k, s.rest 1 = .lock (.take l) :: k
  tame : tame (s.rest 1)

theorem attempt_stuck {l : Locks} (h : (l.lock 3).locker = some 0) (p : Nat) :
    ((l.attempt 1 p).1.lock 3).locker = some 0 ∧ (l.attempt 1 p).1.wait 0 = l.wait 0 ∧
    ((l.attempt 1 p).2 = true → p ≠ 3 ∧ (l.attempt 1 p).1.wait 1 = none) ∧
    ((l.attempt 1 p).2 = false → (l.attempt 1 p).1.wait 1 = some (p, false)) := by
  unfold Locks.attempt
  split
  · rename_i e
    have hp : p ≠ 3 := by intro e'; subst e'; rw [h] at e; cases e
    refine ⟨?_, ?_, ?_, ?_⟩
    · simp [Locks.setLock, Ne.symm hp, h]
    · simp [Locks.setWait]
    · intro _; simp [Locks.setWait, hp]
    · intro e; cases e
  · rename_i x e
    refine ⟨?_, ?_, ?_, ?_⟩
    · simp only [Locks.setLock]
      split
      · rename_i e'; rw [← e']; exact h
      · exact h
    · simp [Locks.setWait]
    · intro e; cases e
    · intro _; simp [Locks.setWait]

theorem stuck_step (s s' : Room) (u : Nat) (b : Bool) (hu : u < 2) (h : Stuck s) (hs : s.step false u b = .ok s') : Stuck s' := by
  have h01 : u = 0 ∨ u = 1 := by omega
  rcases h01 with e | e
  · subst e
    unfold Room.step at hs
    rw [h.rest] at hs
    dsimp only [stuck] at hs
    split at hs
    · rename_i e; exact absurd e h.asleep
    · split at hs
      · split at hs
        · rename_i hf; rw [h.free] at hf; omega
        · injection hs with hs; subst hs
          exact ⟨h.rest, by simp [Room.set], h.free, h.lock, h.wait0, h.old, h.mem, h.wait, h.tame⟩
      · injection hs with hs; subst hs; exact h
  · subst e
    have hr0 : ∀ k, Room.set s.rest 1 k 0 = stuck := by intro k; simp [Room.set, h.rest]
    have hr1 : ∀ k : List Deed, Room.set s.rest 1 k 1 = k := by intro k; simp [Room.set]
    have ht := h.tame
    unfold Room.step at hs
    cases hr : s.rest 1 with
    | nil => rw [hr] at hs; injection hs with hs; subst hs; exact h
    | cons d k =>
      rw [hr] at hs ht
      have hnw : (∀ l, d ≠ .lock (.take l)) → s.locks.wait 1 = none := by
        intro hd
        cases hx : s.locks.wait 1 with
        | none => rfl
        | some x =>
          obtain ⟨k', e⟩ := h.wait x.1 x.2 hx
          rw [hr] at e; injection e with e; exact absurd e (hd _)
      cases d with
      | lock a =>
        dsimp only at hs
        cases a with
        | shared =>
          have hw := hnw (by intro l e; cases e)
          simp only [Threads.step, if_true] at hs
          split at hs
          · rename_i c hc
            injection hs with hs; subst hs
            split at hc
            · injection hc with hc; subst hc
              refine ⟨?_, h.asleep, h.free, h.lock, h.wait0, h.old, h.mem, (by intro l w e; rw [hw] at e; cases e), ?_⟩
              · dsimp only; split
                · exact hr0 k
                · exact h.rest
              · dsimp only; rw [if_pos (by simp [Threads.setRest]), hr1]; exact ht
            · injection hc with hc; subst hc
              exact ⟨by simp [h.rest], h.asleep, h.free, h.lock, h.wait0, h.old, h.mem, (by intro l w e; rw [hw] at e; cases e), by simp [hr]; exact ht⟩
          all_goals cases hs
        | exclusive =>
          have hw := hnw (by intro l e; cases e)
          simp only [Threads.step, if_true] at hs
          split at hs
          · rename_i c hc
            injection hs with hs; subst hs
            split at hc
            · injection hc with hc; subst hc
              refine ⟨?_, h.asleep, h.free, h.lock, h.wait0, h.old, h.mem, (by intro l w e; rw [hw] at e; cases e), ?_⟩
              · dsimp only; split
                · exact hr0 k
                · exact h.rest
              · dsimp only; rw [if_pos (by simp [Threads.setRest]), hr1]; exact ht
            · injection hc with hc; subst hc
              exact ⟨by simp [h.rest], h.asleep, h.free, h.lock, h.wait0, h.old, h.mem, (by intro l w e; rw [hw] at e; cases e), by simp [hr]; exact ht⟩
          all_goals cases hs
        | release =>
          have hw := hnw (by intro l e; cases e)
          simp only [Threads.step, if_true] at hs
          split at hs
          · rename_i c hc
            injection hs with hs; subst hs
            split at hc
            · injection hc with hc; subst hc
              refine ⟨?_, h.asleep, h.free, h.lock, h.wait0, h.old, h.mem, (by intro l w e; rw [hw] at e; cases e), ?_⟩
              · dsimp only; split
                · exact hr0 k
                · exact h.rest
              · dsimp only; rw [if_pos (by simp [Threads.setRest]), hr1]; exact ht
            all_goals cases hc
          all_goals cases hs
        | give l =>
          have hw := hnw (by intro l e; cases e)
          simp only [Threads.step, if_true] at hs
          injection hs with hs; subst hs
          have hl3 : l ≠ 3 := ht.1
          refine ⟨?_, h.asleep, h.free, ?_, ?_, h.old, h.mem, ?_, ?_⟩
          · dsimp only; split
            · exact hr0 k
            · exact h.rest
          · dsimp only [Locks.lockage_unlock]
            split
            · simp [Locks.setLock, Ne.symm hl3, h.lock]
            · split <;> simp [Locks.broadcast, Locks.setLock, Ne.symm hl3, h.lock]
          · dsimp only [Locks.lockage_unlock]
            split
            · exact h.wait0
            · split <;> simp [Locks.broadcast, h.wait0]
          · intro l' w e
            dsimp only [Locks.lockage_unlock] at e
            split at e
            · rw [hw] at e; cases e
            · split at e <;> simp [Locks.broadcast, hw] at e
          · dsimp only; rw [if_pos (by simp [Threads.setRest]), hr1]; exact ht.2
        | take l =>
          simp only [Threads.step, if_true] at hs
          cases hx : s.locks.wait 1 with
          | none =>
            rw [hx] at hs
            dsimp only at hs
            injection hs with hs; subst hs
            have hll : s.locks.lockage_lock 1 l = s.locks.attempt 1 l ∨
                (l ≠ 3 ∧ (s.locks.lockage_lock 1 l).2 = true ∧ (s.locks.lockage_lock 1 l).1.wait = s.locks.wait ∧
                  (s.locks.lockage_lock 1 l).1.lock 3 = s.locks.lock 3) := by
              unfold Locks.lockage_lock
              split
              · rename_i e
                right
                have hp : l ≠ 3 := by intro e'; subst e'; rw [h.lock] at e; cases e
                exact ⟨hp, rfl, rfl, by simp [Locks.setLock, Ne.symm hp]⟩
              · left; rfl
            rcases hll with hll | ⟨hp, h2, h3, h4⟩
            · rw [hll]
              obtain ⟨a1, a2, a3, a4⟩ := attempt_stuck h.lock l
              cases hb : (s.locks.attempt 1 l).2 with
              | true =>
                obtain ⟨hp, hn⟩ := a3 hb
                refine ⟨?_, h.asleep, h.free, a1, a2.trans h.wait0, h.old, h.mem, ?_, ?_⟩
                · simp [Threads.setRest, hr0]
                · intro l' w e; dsimp only at e; rw [hn] at e; cases e
                · simp [Threads.setRest, hr1]; exact ht.resolve_left hp
              | false =>
                refine ⟨?_, h.asleep, h.free, a1, a2.trans h.wait0, h.old, h.mem, ?_, ?_⟩
                · simp [h.rest]
                · intro l' w e; dsimp only at e; rw [a4 hb] at e; injection e with e; injection e with e1 e2
                  subst e1
                  exact ⟨k, by simp [hr]⟩
                · simp [hr]; exact ht
            · rw [h2]
              refine ⟨?_, h.asleep, h.free, ?_, ?_, h.old, h.mem, ?_, ?_⟩
              · simp [Threads.setRest, hr0]
              · dsimp only; rw [h4]; exact h.lock
              · dsimp only; rw [h3]; exact h.wait0
              · intro l' w e; dsimp only at e; rw [h3, hx] at e; cases e
              · simp [Threads.setRest, hr1]; exact ht.resolve_left hp
          | some x =>
            obtain ⟨l', w⟩ := x
            obtain ⟨k', e⟩ := h.wait l' w hx
            rw [hr] at e
            injection e with e e2
            injection e with e
            injection e with e
            subst e
            rw [hx] at hs
            dsimp only at hs
            split at hs
            · rename_i c hc
              injection hs with hs; subst hs
              split at hc
              · injection hc with hc; subst hc
                have hlk : (({ s.locks with lock := s.locks.setLock l { s.locks.lock l with pending := (s.locks.lock l).pending - 1 } } : Locks).lock 3).locker = some 0 := by
                  simp only [Locks.setLock]
                  split
                  · rename_i e'; rw [← e']; exact h.lock
                  · exact h.lock
                have hwk : s.locks.wake 1 = Locks.attempt { s.locks with lock := s.locks.setLock l { s.locks.lock l with pending := (s.locks.lock l).pending - 1 } } 1 l := by
                  unfold Locks.wake; rw [hx]
                rw [hwk]
                obtain ⟨a1, a2, a3, a4⟩ := attempt_stuck hlk l
                cases hb : (Locks.attempt { s.locks with lock := s.locks.setLock l { s.locks.lock l with pending := (s.locks.lock l).pending - 1 } } 1 l).2 with
                | true =>
                  obtain ⟨hp, hn⟩ := a3 hb
                  refine ⟨?_, h.asleep, h.free, a1, a2.trans h.wait0, h.old, h.mem, ?_, ?_⟩
                  · simp [Threads.setRest, hr0]
                  · intro l' w e; dsimp only at e; rw [hn] at e; cases e
                  · simp [Threads.setRest, hr1]; exact ht.resolve_left hp
                | false =>
                  refine ⟨?_, h.asleep, h.free, a1, a2.trans h.wait0, h.old, h.mem, ?_, ?_⟩
                  · simp [h.rest]
                  · intro l' w e; dsimp only at e; rw [a4 hb] at e; injection e with e; injection e with e1 e2
                    subst e1
                    exact ⟨k, by simp [hr]⟩
                  · simp [hr]; exact ht
              · injection hc with hc; subst hc
                refine ⟨?_, h.asleep, h.free, h.lock, h.wait0, h.old, h.mem, ?_, ?_⟩
                · simp [h.rest]
                · intro l' w' e; obtain ⟨k', e'⟩ := h.wait l' w' e; exact ⟨k', by simp [e']⟩
                · simp [hr]; exact ht
            all_goals cases hs
      | page q undo' => exact ht.elim
      | rotate q =>
        have hw := hnw (by intro l e; cases e)
        injection hs with hs; subst hs
        have hq : q ≠ 1 := ht.1
        refine ⟨hr0 k, h.asleep, h.free, h.lock, h.wait0, ?_, ?_, (by intro l w e; rw [hw] at e; cases e), by dsimp only; rw [hr1]; exact ht.2⟩
        · intro p
          simp only [Room.set]
          split
          · exact h.mem q hq
          · exact h.old p
        · intro p hp
          simp only [Room.set]
          split
          · exact h.old q
          · exact h.mem p hp
      | fin =>
        have hw := hnw (by intro l e; cases e)
        injection hs with hs; subst hs
        exact ⟨hr0 k, h.asleep, h.free, h.lock, h.wait0, h.old, h.mem, (by intro l w e; rw [hw] at e; cases e), by dsimp only; rw [hr1]; exact ht⟩
      | reset => exact ht.elim
      | free q =>
        have hw := hnw (by intro l e; cases e)
        injection hs with hs; subst hs
        have e : s.give_back (s.old q) = s := by rw [h.old q]; rfl
        rw [e]
        refine ⟨hr0 k, h.asleep, h.free, h.lock, h.wait0, ?_, h.mem, (by intro l w e; rw [hw] at e; cases e), by dsimp only; rw [hr1]; exact ht⟩
        intro p
        simp only [Room.set]
        split
        · rfl
        · exact h.old p
      | drop q => exact ht.elim

end Verif.C81
