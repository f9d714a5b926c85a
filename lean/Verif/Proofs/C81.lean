import Verif.Proofs.C59Calls
import Verif.Spec.C81

namespace Verif.C81
open C59 (Hold Ok Inv upd)
open Room

/-- The lock operations among deeds. -/
def acts : List Deed → List Act
  | [] => []
  | .lock a :: k => a :: acts k
  | _ :: k => acts k

theorem acts_append (a b : List Deed) : acts (a ++ b) = acts a ++ acts b := by
  induction a with
  | nil => rfl
  | cons d a ih => cases d <;> simp [acts, ih]

theorem acts_locks (as : List Act) : acts (Deed.locks as) = as := by
  induction as with
  | nil => rfl
  | cons a as ih =>
    show a :: acts (Deed.locks as) = a :: as
    rw [ih]

/-- What a thread that holds `g` may do. -/
def Can (first : Bool) (g : Hold) : Act → Prop
  | .shared => g.ex = false ∧ (first = true → g.held = [] ∧ g.sh = 0)
  | .exclusive => g.ex = false ∧ g.held = [] ∧ g.sh = 0
  | .release => (g.ex = true ∧ g.held = [] ∧ g.sh = 0) ∨ (g.ex = false ∧ 0 < g.sh)
  | .take l => g.ex = false ∧ 0 < g.sh ∧ ∀ h ∈ g.held, h ≤ l
  | .give l => g.ex = false ∧ l ∈ g.held

theorem ok_cons {first : Bool} {g : Hold} {a : Act} {k : List Act} :
    Ok first g (a :: k) ↔ Can first g a ∧ Ok first (g.after a) k := by
  cases a with
  | shared => simp only [Ok, Can, Hold.after, and_assoc]
  | exclusive => simp only [Ok, Can, Hold.after, and_assoc]
  | take l => simp only [Ok, Can, Hold.after, and_assoc]
  | give l => simp only [Ok, Can, Hold.after, and_assoc]
  | release =>
    simp only [Ok, Can, Hold.after]
    cases hx : g.ex <;> simp [and_assoc]

/-- A disciplined script for a thread that holds `g`: also when there is no page. -/
inductive Good (first : Bool) : Hold → List Deed → Prop
  | nil {g} : g.held = [] ∧ g.sh = 0 ∧ g.ex = false → Good first g []
  | lock {g a k} : Can first g a → Good first (g.after a) k → Good first g (.lock a :: k)
  | page {g p undo k} : Good first g k → Good first g (Deed.locks undo ++ k.dropWhile (fun d => !d.isFin)) →
      undo.length + (k.dropWhile (fun d => !d.isFin)).length ≤ k.length → Good first g (.page p undo :: k)
  | rotate {g p k} : Good first g k → Good first g (.rotate p :: k)
  | free {g p k} : Good first g k → Good first g (.free p :: k)
  | drop {g p k} : Good first g k → Good first g (.drop p :: k)
  | reset {g k} : Good first g k → Good first g (.reset :: k)
  | fin {g k} : Good first g k → Good first g (.fin :: k)

theorem good_ok {first : Bool} {g : Hold} {k : List Deed} (h : Good first g k) : Ok first g (acts k) := by
  induction h with
  | nil h => exact h
  | lock hc _ ih => exact ok_cons.2 ⟨hc, ih⟩
  | page _ _ _ ih _ => exact ih
  | rotate _ ih => exact ih
  | free _ ih => exact ih
  | drop _ ih => exact ih
  | reset _ ih => exact ih
  | fin _ ih => exact ih

/-- The state as C59 sees it. -/
def proj (s : Room) : Threads := ⟨s.control, s.locks, fun t => acts (s.rest t)⟩

structure RInv (first : Bool) (n : Nat) (g : Nat → Hold) (s : Room) : Prop where
  inv : Inv first n g (proj s)
  good : ∀ t, t < n → Good first (g t) (s.rest t)
  want : ∀ t x, s.locks.wait t = some x → ∃ p k, s.rest t = .lock (.take p) :: k
  queue : ∀ t, t ∈ s.control.waiting → ∃ k, s.rest t = .lock .exclusive :: k
  sleep : ∀ t w, s.asleep t = some w → ∃ p undo k, s.rest t = .page p undo :: k

/-- One thread's operation alone. -/
def mini (s : Room) (t : Nat) (a : Act) : Threads := ⟨s.control, s.locks, fun u => if u = t then [a] else []⟩

theorem attempt_wait (l : Locks) (t p u : Nat) (h : u ≠ t) : (l.attempt t p).1.wait u = l.wait u := by
  unfold Locks.attempt
  split <;> simp [Locks.setWait, h]

theorem attempt_done (l : Locks) (t p : Nat) (h : (l.attempt t p).2 = true) : (l.attempt t p).1.wait t = none := by
  unfold Locks.attempt at h ⊢
  split
  · simp [Locks.setWait]
  · rename_i e; rw [e] at h; cases h

/-- A step of the operation alone is a step of the thread. -/
theorem mini_step {first : Bool} {s : Room} {t : Nat} {b : Bool} {a : Act} {k : List Act} {S : Threads} {c : Threads}
    (hc : S.control = s.control) (hl : S.locks = s.locks) (hr : S.rest t = a :: k)
    (h : Threads.step first (mini s t a) t b = .ok c) :
    Threads.step first S t b = .ok ⟨c.control, c.locks, if (c.rest t).isEmpty then S.setRest t k else S.rest⟩ := by
  have e : (mini s t a).rest t = [a] := by simp [mini]
  obtain ⟨sc, sl, sr⟩ := S
  dsimp only at hc hl hr
  subst hc hl
  unfold Threads.step at h ⊢
  rw [e] at h
  dsimp only
  rw [hr]
  cases a with
  | shared =>
    dsimp only [mini] at h ⊢
    split at h
    · injection h with h; subst h; simp [Threads.setRest]
    · injection h with h; subst h; simp
  | exclusive =>
    dsimp only [mini] at h ⊢
    split at h
    · injection h with h; subst h; simp [Threads.setRest]
    · injection h with h; subst h; simp
  | release =>
    dsimp only [mini] at h ⊢
    split at h
    · injection h with h; subst h; simp [Threads.setRest]
    all_goals cases h
  | give l =>
    dsimp only [mini] at h ⊢
    injection h with h; subst h; simp [Threads.setRest]
  | take l =>
    dsimp only [mini] at h ⊢
    split at h
    · split at h
      · rename_i h2
        injection h with h; subst h
        rw [if_pos h2]
        cases (s.locks.wake t).2 <;> simp [Threads.setRest]
      · rename_i h2
        injection h with h; subst h
        rw [if_neg h2]
        simp
    · injection h with h; subst h
      cases (s.locks.lockage_lock t l).2 <;> simp [Threads.setRest]

theorem mini_error {first : Bool} {s : Room} {t : Nat} {b : Bool} {a : Act} {k : List Act} {S : Threads} {s' : Threads}
    (hc : S.control = s.control) (hl : S.locks = s.locks) (hr : S.rest t = a :: k)
    (h : Threads.step first S t b = .ok s') : ∃ c, Threads.step first (mini s t a) t b = .ok c := by
  have e : (mini s t a).rest t = [a] := by simp [mini]
  unfold Threads.step at h ⊢
  rw [e]
  rw [hr, hc, hl] at h
  cases a with
  | shared => dsimp only [mini]; split <;> exact ⟨_, rfl⟩
  | exclusive => dsimp only [mini]; split <;> exact ⟨_, rfl⟩
  | release =>
    dsimp only [mini] at h ⊢
    split at h
    · exact ⟨_, rfl⟩
    all_goals cases h
  | give l => exact ⟨_, rfl⟩
  | take l =>
    dsimp only [mini]
    split
    · split <;> exact ⟨_, rfl⟩
    · exact ⟨_, rfl⟩

/-- What the operation does to those who sleep. -/
theorem mini_sleep {first : Bool} {s : Room} {t : Nat} {b : Bool} {a : Act} {c : Threads}
    (hw : (∀ p, a ≠ .take p) → s.locks.wait t = none) (hx : a ≠ .exclusive → t ∉ s.control.waiting)
    (h : Threads.step first (mini s t a) t b = .ok c) :
    (∀ u, u ≠ t → s.locks.wait u = none → c.locks.wait u = none) ∧
    (∀ u, u ≠ t → u ∈ c.control.waiting → u ∈ s.control.waiting) ∧
    ((c.rest t).isEmpty = true → c.locks.wait t = none ∧ t ∉ c.control.waiting) := by
  have e : (mini s t a).rest t = [a] := by simp [mini]
  unfold Threads.step at h
  rw [e] at h
  cases a with
  | shared =>
    have h1 := hw (by simp)
    have h2 := hx (by simp)
    dsimp only [mini] at h
    unfold Rwlock.rdlock at h
    split at h
    · rename_i h3
      split at h3
      · injection h3 with h3; subst h3
        injection h with h; subst h
        exact ⟨fun u _ hu => hu, fun u _ hu => hu, fun _ => ⟨h1, h2⟩⟩
      · cases h3
    · injection h with h; subst h
      exact ⟨fun u _ hu => hu, fun u _ hu => hu, fun _ => ⟨h1, h2⟩⟩
  | exclusive =>
    have h1 := hw (by simp)
    dsimp only [mini] at h
    unfold Rwlock.wrlock at h
    split at h
    · rename_i h3
      split at h3
      · injection h3 with h3; subst h3
        injection h with h; subst h
        refine ⟨fun u _ hu => hu, fun u _ hu => ?_, fun _ => ⟨h1, ?_⟩⟩
        · simp only [List.mem_filter] at hu; exact hu.1
        · simp
      · cases h3
    · injection h with h; subst h
      refine ⟨fun u _ hu => hu, fun u hne hu => ?_, fun he => ?_⟩
      · dsimp only [Rwlock.sleep] at hu
        split at hu
        · exact hu
        · rcases List.mem_cons.1 hu with h4 | h4
          · exact absurd h4 hne
          · exact h4
      · simp at he
  | release =>
    have h1 := hw (by simp)
    have h2 := hx (by simp)
    dsimp only [mini] at h
    split at h
    · rename_i c' h3
      injection h with h; subst h
      have : c'.waiting = s.control.waiting := by
        unfold Rwlock.unlock at h3
        split at h3
        · injection h3 with h3; subst h3; rfl
        · split at h3
          · cases h3
          · injection h3 with h3; subst h3; rfl
      dsimp only
      rw [this]
      exact ⟨fun u _ hu => hu, fun u _ hu => hu, fun _ => ⟨h1, h2⟩⟩
    all_goals cases h
  | give l =>
    have h1 := hw (by simp)
    have h2 := hx (by simp)
    dsimp only [mini] at h
    injection h with h; subst h
    have key : ∀ u, s.locks.wait u = none → (s.locks.lockage_unlock l).wait u = none := by
      intro u hu
      unfold Locks.lockage_unlock
      dsimp only
      split
      · exact hu
      · split
        · simp [Locks.broadcast, hu]
        · exact hu
    exact ⟨fun u _ hu => key u hu, fun u _ hu => hu, fun _ => ⟨key t h1, h2⟩⟩
  | take l =>
    have h2 := hx (by simp)
    dsimp only [mini] at h
    split at h
    · rename_i h3
      split at h
      · injection h with h; subst h
        dsimp only
        unfold Locks.wake
        rw [h3]
        dsimp only
        refine ⟨fun u hne hu => ?_, fun u _ hu => hu, fun he => ⟨?_, h2⟩⟩
        · rw [attempt_wait _ _ _ _ hne]; exact hu
        · refine attempt_done _ _ _ ?_
          apply Classical.byContradiction
          intro hf
          rw [Bool.not_eq_true] at hf
          rw [hf] at he
          simp at he
      · injection h with h; subst h
        exact ⟨fun u _ hu => hu, fun u _ hu => hu, fun he => by simp at he⟩
    · rename_i h3
      injection h with h; subst h
      dsimp only
      unfold Locks.lockage_lock
      split
      · exact ⟨fun u _ hu => hu, fun u _ hu => hu, fun _ => ⟨h3, h2⟩⟩
      · refine ⟨fun u hne hu => ?_, fun u _ hu => hu, fun he => ⟨?_, h2⟩⟩
        · rw [attempt_wait _ _ _ _ hne]; exact hu
        · refine attempt_done _ _ _ ?_
          apply Classical.byContradiction
          intro hf
          rw [Bool.not_eq_true] at hf
          rw [hf] at he
          simp at he

theorem acts_set (s : Room) (t : Nat) (k : List Deed) :
    (fun u => acts (Room.set s.rest t k u)) = (proj s).setRest t (acts k) := by
  funext u
  dsimp only [Room.set, Threads.setRest, proj]
  split <;> rfl

/-- A step on a lock: the thread waits, or its operation is done. -/
theorem rinv_lock {first n g s} (h : RInv first n g s) {t : Nat} (b : Bool) (ht : t < n) {a : Act} {k : List Deed}
    (hr : s.rest t = .lock a :: k) :
    ∃ c, Threads.step first (mini s t a) t b = .ok c ∧
      (((c.rest t).isEmpty = false ∧ RInv first n g { s with control := c.control, locks := c.locks }) ∨
       ((c.rest t).isEmpty = true ∧ RInv first n (upd g t ((g t).after a))
          { s with control := c.control, locks := c.locks, rest := Room.set s.rest t k })) := by
  have hp : (proj s).rest t = a :: acts k := by simp only [proj, hr, acts]
  obtain ⟨S', h1, h2⟩ := C59.inv_next h.inv t b ht hp
  obtain ⟨c, hc⟩ := mini_error rfl rfl hp h1
  have h3 := mini_step (S := proj s) rfl rfl hp hc
  rw [h1] at h3
  injection h3 with h3
  have hg := h.good t ht
  rw [hr] at hg
  cases hg with
  | lock hcan hgood =>
  obtain ⟨m1, m2, m3⟩ := mini_sleep (a := a) (c := c)
    (by
      intro hne
      cases hx : s.locks.wait t with
      | none => rfl
      | some x =>
        obtain ⟨p, k', e⟩ := h.want t x hx
        rw [hr] at e
        cases e
        exact absurd rfl (hne p))
    (by
      intro hne hx
      obtain ⟨k', e⟩ := h.queue t hx
      rw [hr] at e
      cases e
      exact hne rfl) hc
  refine ⟨c, hc, ?_⟩
  cases hd : (c.rest t).isEmpty with
  | false =>
    left
    rw [hd] at h3
    simp only [Bool.false_eq_true, if_false] at h3
    have hi : Inv first n g (proj { s with control := c.control, locks := c.locks }) := by
      rcases h2 with ⟨_, h2⟩ | ⟨h2, _⟩
      · rw [h3] at h2; exact h2
      · exfalso
        rw [h3] at h2
        have := congrFun h2 t
        rw [hp] at this
        simp only [Threads.setRest, if_pos] at this
        exact absurd this (by intro e; have := congrArg List.length e; simp at this)
    refine ⟨rfl, hi, h.good, ?_, ?_, h.sleep⟩
    · intro u x hu
      by_cases e : u = t
      · subst e
        obtain ⟨k', e⟩ := hi.want u x.1 x.2 hu
        have : acts (s.rest u) = a :: acts k := hp
        simp only [proj] at e
        rw [this] at e
        cases e
        exact ⟨_, _, hr⟩
      · cases hx : s.locks.wait u with
        | none => rw [show ({ s with control := c.control, locks := c.locks } : Room).locks.wait u = none from m1 u e hx] at hu; cases hu
        | some y => exact h.want u y hx
    · intro u hu
      by_cases e : u = t
      · subst e
        obtain ⟨_, k', e⟩ := hi.waiting u hu
        have : acts (s.rest u) = a :: acts k := hp
        simp only [proj] at e
        rw [this] at e
        cases e
        exact ⟨_, hr⟩
      · exact h.queue u (m2 u e hu)
  | true =>
    right
    rw [hd] at h3
    simp only [if_true] at h3
    have hi : Inv first n (upd g t ((g t).after a)) (proj { s with control := c.control, locks := c.locks, rest := Room.set s.rest t k }) := by
      have e : proj { s with control := c.control, locks := c.locks, rest := Room.set s.rest t k } = S' := by
        rw [h3, ← acts_set]
        rfl
      rw [e]
      rcases h2 with ⟨h2, _⟩ | ⟨_, h2⟩
      · exfalso
        rw [h3] at h2
        have := congrFun h2 t
        rw [hp] at this
        simp only [Threads.setRest, if_pos] at this
        exact absurd this (by intro e; have := congrArg List.length e; simp at this)
      · exact h2
    obtain ⟨w1, w2⟩ := m3 hd
    refine ⟨rfl, hi, ?_, ?_, ?_, ?_⟩
    · intro u hu
      dsimp only [upd, Room.set]
      by_cases e : u = t
      · rw [if_pos e, if_pos e]; exact hgood
      · rw [if_neg e, if_neg e]; exact h.good u hu
    · intro u x hu
      dsimp only [Room.set] at hu ⊢
      by_cases e : u = t
      · subst e; rw [w1] at hu; cases hu
      · rw [if_neg e]
        cases hx : s.locks.wait u with
        | none => rw [m1 u e hx] at hu; cases hu
        | some y => exact h.want u y hx
    · intro u hu
      dsimp only [Room.set] at hu ⊢
      by_cases e : u = t
      · subst e; exact absurd hu w2
      · rw [if_neg e]; exact h.queue u (m2 u e hu)
    · intro u w hu
      dsimp only [Room.set] at hu ⊢
      obtain ⟨p, undo, k', e1⟩ := h.sleep u w hu
      by_cases e : u = t
      · subst e; rw [hr] at e1; cases e1
      · rw [if_neg e]; exact ⟨p, undo, k', e1⟩

/-- A step that leaves the locks alone. -/
theorem rinv_mem {first n g s} (h : RInv first n g s) {t : Nat} (ht : t < n) {d : Deed} {k k' : List Deed}
    (hr : s.rest t = d :: k) (hd : ∀ a, d ≠ .lock a) (hg : Good first (g t) k')
    {s' : Room} (hc : s'.control = s.control) (hl : s'.locks = s.locks) (hrest : s'.rest = Room.set s.rest t k')
    (ha : ∀ u w, s'.asleep u = some w → u ≠ t ∧ ∃ w', s.asleep u = some w') : RInv first n g s' := by
  have hw : s.locks.wait t = none := by
    cases hx : s.locks.wait t with
    | none => rfl
    | some x =>
      obtain ⟨p, k', e⟩ := h.want t x hx
      rw [hr] at e
      cases e
      exact absurd rfl (hd _)
  have hq : t ∉ s.control.waiting := by
    intro hx
    obtain ⟨k', e⟩ := h.queue t hx
    rw [hr] at e
    cases e
    exact absurd rfl (hd _)
  have hi := h.inv
  refine ⟨⟨?_, ?_, ?_, ?_, ?_, ?_, ?_, ?_, ?_, ?_, ?_⟩, ?_, ?_, ?_, ?_⟩
  · simp only [proj, hl]; exact hi.base
  · simp only [proj, hl]; exact hi.inside
  · simp only [proj, hl]; exact hi.own
  · simp only [proj, hl]; exact hi.refs
  · intro u hu
    simp only [proj, hrest, Room.set]
    by_cases e : u = t
    · rw [if_pos e, e]; exact good_ok hg
    · rw [if_neg e]; exact hi.ok u hu
  · intro u p b hu
    simp only [proj, hl] at hu
    simp only [proj, hrest, Room.set]
    by_cases e : u = t
    · rw [e, hw] at hu; cases hu
    · rw [if_neg e]; exact hi.want u p b hu
  · simp only [proj, hc]; exact hi.readers
  · simp only [proj, hc]; exact hi.writer
  · simp only [proj, hc]; exact hi.winside
  · simp only [proj, hc]; exact hi.alone
  · intro u hu
    simp only [proj, hc] at hu
    simp only [proj, hrest, Room.set]
    by_cases e : u = t
    · exact absurd (e ▸ hu) hq
    · rw [if_neg e]; exact hi.waiting u hu
  · intro u hu
    rw [hrest]
    dsimp only [Room.set]
    by_cases e : u = t
    · rw [if_pos e, e]; exact hg
    · rw [if_neg e]; exact h.good u hu
  · intro u x hu
    rw [hl] at hu
    rw [hrest]
    dsimp only [Room.set]
    by_cases e : u = t
    · rw [e, hw] at hu; cases hu
    · rw [if_neg e]; exact h.want u x hu
  · intro u hu
    rw [hc] at hu
    rw [hrest]
    dsimp only [Room.set]
    by_cases e : u = t
    · exact absurd (e ▸ hu) hq
    · rw [if_neg e]; exact h.queue u hu
  · intro u w hu
    obtain ⟨h1, w', h2⟩ := ha u w hu
    rw [hrest]
    dsimp only [Room.set]
    rw [if_neg h1]
    exact h.sleep u w' h2

theorem give_back_same (s : Room) (k : Nat) :
    (s.give_back k).control = s.control ∧ (s.give_back k).locks = s.locks ∧ (s.give_back k).rest = s.rest ∧
    (s.give_back k).mem = s.mem ∧ (s.give_back k).old = s.old ∧ (s.give_back k).failed = s.failed ∧
    (∀ u, (s.give_back k).asleep u = none ↔ s.asleep u = none) := by
  unfold give_back
  split
  · simp
  · refine ⟨rfl, rfl, rfl, rfl, rfl, rfl, ?_⟩
    intro u
    dsimp only
    split <;> simp

theorem asleep_of {s : Room} {k u : Nat} {w : Bool} (h : (s.give_back k).asleep u = some w) : ∃ w', s.asleep u = some w' := by
  cases hx : s.asleep u with
  | none => rw [((give_back_same s k).2.2.2.2.2.2 u).2 hx] at h; cases h
  | some w' => exact ⟨w', rfl⟩

theorem rinv_step {first n g s} (h : RInv first n g s) (t : Nat) (b : Bool) (ht : t < n) :
    ∃ s' g', s.step first t b = .ok s' ∧ RInv first n g' s' := by
  have hg := h.good t ht
  have hns : (∀ p undo k, s.rest t ≠ .page p undo :: k) → s.asleep t = none := by
    intro hne
    cases hx : s.asleep t with
    | none => rfl
    | some w => obtain ⟨p, u, k, e⟩ := h.sleep t w hx; exact absurd e (hne p u k)
  have hsl : s.asleep t = none → ∀ u w, s.asleep u = some w → u ≠ t ∧ ∃ w', s.asleep u = some w' := by
    intro h0 u w hu
    refine ⟨fun e => ?_, w, hu⟩
    rw [e, h0] at hu
    cases hu
  cases hr : s.rest t with
  | nil => exact ⟨s, g, by unfold step; rw [hr], h⟩
  | cons d k =>
    rw [hr] at hg
    have hns' : (∀ p undo, d ≠ .page p undo) → s.asleep t = none := fun hne => hns (by
      intro p undo k' e; rw [hr] at e; cases e; exact hne _ _ rfl)
    unfold step
    rw [hr]
    cases hg with
    | lock hcan hgood =>
      rename_i a
      obtain ⟨c, h1, h2⟩ := rinv_lock h b ht hr
      unfold mini at h1
      dsimp only
      rw [h1]
      rcases h2 with ⟨h2, h3⟩ | ⟨h2, h3⟩
      · refine ⟨_, g, rfl, ?_⟩
        rw [h2]
        exact h3
      · refine ⟨_, upd g t ((g t).after a), rfl, ?_⟩
        rw [h2]
        exact h3
    | page hk hu hlen =>
      rename_i p undo
      dsimp only
      cases ha : s.asleep t with
      | none =>
        dsimp only
        have hs := hsl ha
        cases hp : s.pool.pop with
        | got m =>
          dsimp only
          refine ⟨_, g, rfl, rinv_mem h ht hr (by intro a e; cases e) hk rfl rfl rfl ?_⟩
          intro u w hu'
          dsimp only [got, Room.set] at hu'
          split at hu'
          · cases hu'
          · exact hs u w hu'
        | wait =>
          dsimp only
          refine ⟨_, g, rfl, h.inv, h.good, h.want, h.queue, ?_⟩
          intro u w hu'
          dsimp only [Room.set] at hu'
          split at hu'
          · rename_i e; rw [e]; exact ⟨p, undo, k, hr⟩
          · exact h.sleep u w hu'
        | throw =>
          dsimp only
          exact ⟨_, g, rfl, rinv_mem h ht hr (by intro a e; cases e) hu rfl rfl rfl hs⟩
      | some w0 =>
        dsimp only
        split
        · split
          · refine ⟨_, g, rfl, rinv_mem h ht hr (by intro a e; cases e) hk rfl rfl rfl ?_⟩
            intro u w hu'
            dsimp only [got, Room.set] at hu'
            split at hu'
            · cases hu'
            · rename_i e; exact ⟨e, w, hu'⟩
          · refine ⟨_, g, rfl, h.inv, h.good, h.want, h.queue, ?_⟩
            intro u w hu'
            dsimp only [Room.set] at hu'
            split at hu'
            · rename_i e; rw [e]; exact ⟨p, undo, k, hr⟩
            · exact h.sleep u w hu'
        · exact ⟨s, g, rfl, h⟩
    | rotate hk => exact ⟨_, g, rfl, rinv_mem h ht hr (by intro a e; cases e) hk rfl rfl rfl (hsl (hns' (by simp)))⟩
    | reset hk => exact ⟨_, g, rfl, rinv_mem h ht hr (by intro a e; cases e) hk rfl rfl rfl (hsl (hns' (by simp)))⟩
    | fin hk => exact ⟨_, g, rfl, rinv_mem h ht hr (by intro a e; cases e) hk rfl rfl rfl (hsl (hns' (by simp)))⟩
    | free hk =>
      rename_i p
      have hx := give_back_same s (s.old p)
      refine ⟨_, g, rfl, rinv_mem h ht hr (by intro a e; cases e) hk hx.1 hx.2.1 rfl ?_⟩
      intro u w hu
      obtain ⟨w', h1⟩ := asleep_of hu
      exact hsl (hns' (by simp)) u w' h1
    | drop hk =>
      rename_i p
      have hx := give_back_same s (s.mem p)
      have hy := give_back_same (s.give_back (s.mem p)) (s.old p)
      refine ⟨_, g, rfl, rinv_mem h ht hr (by intro a e; cases e) hk (hy.1.trans hx.1) (hy.2.1.trans hx.2.1) rfl ?_⟩
      intro u w hu
      obtain ⟨w', h1⟩ := asleep_of hu
      obtain ⟨w', h1⟩ := asleep_of h1
      exact hsl (hns' (by simp)) u w' h1

end Verif.C81
