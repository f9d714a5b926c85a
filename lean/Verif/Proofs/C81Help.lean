import Verif.Proofs.C81Sleep

namespace Verif.C81
open Act

/-- No call fails while waiting is asked for. -/
theorem failed_step {first : Bool} {s s' : Room} {t : Nat} {b : Bool}
    (hp : ∀ p undo k, s.rest t = .page p undo :: k → s.pool.pop ≠ .throw)
    (hs : s.step first t b = .ok s') : s'.failed = s.failed := by
  unfold Room.step at hs
  cases hr : s.rest t with
  | nil => rw [hr] at hs; injection hs with hs; subst hs; rfl
  | cons d k =>
    rw [hr] at hs
    cases d with
    | lock a =>
      dsimp only at hs
      split at hs
      · injection hs with hs; subst hs; rfl
      all_goals cases hs
    | page p undo =>
      dsimp only at hs
      split at hs
      · split at hs
        · injection hs with hs; subst hs; rfl
        · injection hs with hs; subst hs; rfl
        · rename_i h; exact absurd h (hp p undo k hr)
      · split at hs
        · split at hs
          · injection hs with hs; subst hs; rfl
          · injection hs with hs; subst hs; rfl
        · injection hs with hs; subst hs; rfl
    | rotate p => injection hs with hs; subst hs; rfl
    | fin => injection hs with hs; subst hs; rfl
    | reset => injection hs with hs; subst hs; rfl
    | free p =>
      injection hs with hs; subst hs
      exact (give_back_same s _).2.2.2.2.2.1
    | drop p =>
      injection hs with hs; subst hs
      exact ((give_back_same _ _).2.2.2.2.2.1).trans (give_back_same s _).2.2.2.2.2.1

theorem failed_run {first : Bool} {n : Nat} (sched : List (Nat × Bool)) :
    ∀ s s', s.pool.limit_error = false → run first n s sched = .ok s' → s'.failed = s.failed := by
  induction sched with
  | nil => intro s s' _ hs; injection hs with hs; subst hs; rfl
  | cons e sched ih =>
    intro s s' h hs
    obtain ⟨t, b⟩ := e
    rw [run] at hs
    split at hs
    · rename_i ht
      split at hs
      · rename_i s1 h1
        have hm := step_moved ht h1
        rw [ih s1 s' (hm.limit_error.trans h) hs]
        refine failed_step ?_ h1
        intro p undo k _
        unfold Pool.pop
        rw [h]
        split
        · simp
        · split <;> simp
      all_goals cases hs
    · exact ih s s' h hs

theorem roomy_run {first : Bool} {n : Nat} (sched : List (Nat × Bool)) :
    ∀ s s', Roomy n s → run first n s sched = .ok s' → s'.failed = s.failed := by
  induction sched with
  | nil => intro s s' _ hs; injection hs with hs; subst hs; rfl
  | cons e sched ih =>
    intro s s' h hs
    obtain ⟨t, b⟩ := e
    rw [run] at hs
    split at hs
    · rename_i ht
      split at hs
      · rename_i s1 h1
        have hm := step_moved ht h1
        have h' : Roomy n s1 := by
          rcases h with h | h
          · left; rw [hm.limit]; exact h
          · right
            rw [hm.page_size, hm.limit_wm]
            exact Nat.lt_of_le_of_lt (Nat.mul_le_mul_right _ hm.less) h
        rw [ih s1 s' h' hs]
        refine failed_step ?_ h1
        intro p undo k hr
        obtain ⟨m, e⟩ := roomy_pop h ht hr
        rw [e]; simp
      all_goals cases hs
    · exact ih s s' h hs

theorem over_need (c : Limits) (n : Nat) (prog : Nat → List Job) :
    over n (fun t => need ((start c prog).rest t)) = demand n prog := by
  unfold demand
  show over n _ = over n _
  refine over_congr _ _ _ (fun t _ => ?_)
  exact need_deeds (prog t)

/-- What the helper's steps leave alone. -/
structure Beside (h : Nat) (s s' : Room) : Prop where
  rest : ∀ u, u ≠ h → s'.rest u = s.rest u
  pool : s'.pool = s.pool
  mem : s'.mem = s.mem
  old : s'.old = s.old
  asleep : s'.asleep = s.asleep

theorem help_shared {s : Room} {h : Nat} {k : List Deed} (b : Bool) (hr : s.rest h = .lock .shared :: k) (hw : s.control.writer = none) :
    ∃ s', s.step false h b = .ok s' ∧ Beside h s s' ∧ s'.rest h = k ∧ s'.locks = s.locks ∧
      s'.control = { s.control with readers := s.control.readers + 1 } := by
  refine ⟨{ s with control := { s.control with readers := s.control.readers + 1 }, rest := Room.set s.rest h k }, ?_, ⟨?_, rfl, rfl, rfl, rfl⟩, ?_, rfl, rfl⟩
  · unfold Room.step
    rw [hr]
    simp [Threads.step, Rwlock.rdlock, hw, Threads.setRest]
  · intro u hu; simp [Room.set, hu]
  · simp [Room.set]

theorem help_release {s : Room} {h : Nat} {k : List Deed} (b : Bool) (hr : s.rest h = .lock .release :: k) (hw : s.control.writer = none)
    {m : Nat} (hm : s.control.readers = m + 1) :
    ∃ s', s.step false h b = .ok s' ∧ Beside h s s' ∧ s'.rest h = k ∧ s'.locks = s.locks ∧
      s'.control = { s.control with readers := m } := by
  refine ⟨{ s with control := { s.control with readers := m }, rest := Room.set s.rest h k }, ?_, ⟨?_, rfl, rfl, rfl, rfl⟩, ?_, rfl, rfl⟩
  · unfold Room.step
    rw [hr]
    simp [Threads.step, Rwlock.unlock, hw, hm, Threads.setRest]
  · intro u hu; simp [Room.set, hu]
  · simp [Room.set]

theorem help_take {s : Room} {h l : Nat} {k : List Deed} (b : Bool) (hr : s.rest h = .lock (.take l) :: k) (hw : s.locks.wait h = none)
    (hl : (s.locks.lock l).locker = none) :
    ∃ s', s.step false h b = .ok s' ∧ Beside h s s' ∧ s'.rest h = k ∧ s'.control = s.control ∧ s'.locks.wait h = none ∧
      (s'.locks.lock l).locker = some h ∧ (s'.locks.lock l).refs = 0 ∧ ∀ m, m ≠ l → s'.locks.lock m = s.locks.lock m := by
  refine ⟨{ s with locks := ⟨s.locks.setLock l ⟨some h, 0, (s.locks.lock l).pending⟩, s.locks.setWait h none⟩, rest := Room.set s.rest h k }, ?_, ⟨?_, rfl, rfl, rfl, rfl⟩, ?_, rfl, ?_, ?_, ?_, ?_⟩
  · unfold Room.step
    rw [hr]
    simp [Threads.step, hw, Locks.lockage_lock, Locks.attempt, hl, Threads.setRest]
  · intro u hu; simp [Room.set, hu]
  · simp [Room.set]
  · simp [Locks.setWait]
  · simp [Locks.setLock]
  · simp [Locks.setLock]
  · intro m hm; simp [Locks.setLock, hm]

theorem help_give {s : Room} {h l : Nat} {k : List Deed} (b : Bool) (hr : s.rest h = .lock (.give l) :: k) (hw : s.locks.wait h = none)
    (hl : (s.locks.lock l).refs = 0) :
    ∃ s', s.step false h b = .ok s' ∧ Beside h s s' ∧ s'.rest h = k ∧ s'.control = s.control ∧ s'.locks.wait h = none ∧
      (s'.locks.lock l).locker = none ∧ ∀ m, m ≠ l → s'.locks.lock m = s.locks.lock m := by
  refine ⟨{ s with locks := s.locks.lockage_unlock l, rest := Room.set s.rest h k }, ?_, ⟨?_, rfl, rfl, rfl, rfl⟩, ?_, rfl, ?_, ?_, ?_⟩
  · unfold Room.step
    rw [hr]
    simp [Threads.step, Threads.setRest]
  · intro u hu; simp [Room.set, hu]
  · simp [Room.set]
  · simp only [Locks.lockage_unlock, hl]
    simp
    split <;> simp [Locks.broadcast, hw]
  · simp only [Locks.lockage_unlock, hl]
    simp
    split <;> simp [Locks.broadcast, Locks.setLock]
  · intro m hm
    simp only [Locks.lockage_unlock, hl]
    simp
    split <;> simp [Locks.broadcast, Locks.setLock, hm]

theorem Beside.trans {h : Nat} {a b c : Room} (x : Beside h a b) (y : Beside h b c) : Beside h a c :=
  ⟨fun u hu => (y.rest u hu).trans (x.rest u hu), y.pool.trans x.pool, y.mem.trans x.mem, y.old.trans x.old, y.asleep.trans x.asleep⟩

theorem run_cons {first : Bool} {n : Nat} {s s' : Room} {t : Nat} {b : Bool} {sched : List (Nat × Bool)} (ht : t < n)
    (h : s.step first t b = .ok s') : run first n s ((t, b) :: sched) = run first n s' sched := by
  rw [run, if_pos ht, h]

theorem service_ne_access (p q : Nat) : serviceOf p ≠ accessOf q := by unfold serviceOf accessOf; omega

/-- A refresh of a partition nobody locks gives a page to one who waits. -/
theorem refresh_helps {n : Nat} {s : Room} {t h q p : Nat} {undo : List Act} {k : List Deed} {w : Bool}
    (ht : t < n) (hh : h < n) (hne : t ≠ h) (hr : s.rest t = .page p undo :: k) (ha : s.asleep t = some w)
    (hq : s.rest h = Deed.refresh_run q) (hc : s.control.writer = none) (hw : s.locks.wait h = none)
    (h1 : (s.locks.lock (serviceOf q)).locker = none) (h2 : (s.locks.lock (accessOf q)).locker = none)
    (hm : 0 < s.mem q) (hf : s.pool.free * s.pool.page_size < s.pool.cache) :
    ∃ s', run false n s (List.replicate 11 (h, false) ++ [(t, false)]) = .ok s' ∧ s'.rest t = k ∧ s'.asleep t = none ∧ s'.rest h = [] := by
  have hsa := service_ne_access q q
  have e0 : s.rest h = .lock .shared :: .lock (.take (serviceOf q)) :: .lock (.take (accessOf q)) :: .rotate q :: .lock (.give (accessOf q)) ::
    .lock (.take (accessOf q)) :: .lock (.give (accessOf q)) :: .free q :: .lock (.give (serviceOf q)) :: .lock .release :: .fin :: [] := hq
  obtain ⟨s1, r1, b1, k1, l1, c1⟩ := help_shared false e0 hc
  obtain ⟨s2, r2, b2, k2, c2, w2, x2, y2, o2⟩ := help_take false k1 (by rw [l1]; exact hw) (by rw [l1]; exact h1)
  obtain ⟨s3, r3, b3, k3, c3, w3, x3, y3, o3⟩ := help_take false k2 w2 (by rw [o2 _ (Ne.symm hsa), l1]; exact h2)
  have r4 : s3.step false h false = .ok { s3 with mem := Room.set s3.mem q (s3.old q), old := Room.set s3.old q (s3.mem q), rest := Room.set s3.rest h (.lock (.give (accessOf q)) ::
    .lock (.take (accessOf q)) :: .lock (.give (accessOf q)) :: .free q :: .lock (.give (serviceOf q)) :: .lock .release :: .fin :: []) } := by
    unfold Room.step; rw [k3]
  generalize e4 : ({ s3 with mem := Room.set s3.mem q (s3.old q), old := Room.set s3.old q (s3.mem q), rest := Room.set s3.rest h (.lock (.give (accessOf q)) ::
    .lock (.take (accessOf q)) :: .lock (.give (accessOf q)) :: .free q :: .lock (.give (serviceOf q)) :: .lock .release :: .fin :: []) } : Room) = s4 at r4
  have k4 : s4.rest h = .lock (.give (accessOf q)) ::
    .lock (.take (accessOf q)) :: .lock (.give (accessOf q)) :: .free q :: .lock (.give (serviceOf q)) :: .lock .release :: .fin :: [] := by
    rw [← e4]; simp [Room.set]
  have t4 : ∀ u, u ≠ h → s4.rest u = s3.rest u := by intro u hu; rw [← e4]; simp [Room.set, hu]
  have l4 : s4.locks = s3.locks := by rw [← e4]
  have c4 : s4.control = s3.control := by rw [← e4]
  have p4 : s4.pool = s3.pool := by rw [← e4]
  have a4 : s4.asleep = s3.asleep := by rw [← e4]
  have m4 : s4.old q = s3.mem q := by rw [← e4]; simp [Room.set]
  obtain ⟨s5, r5, b5, k5, c5, w5, x5, o5⟩ := help_give false k4 (by rw [l4]; exact w3) (by rw [l4]; exact y3)
  obtain ⟨s6, r6, b6, k6, c6, w6, x6, y6, o6⟩ := help_take false k5 w5 x5
  obtain ⟨s7, r7, b7, k7, c7, w7, x7, o7⟩ := help_give false k6 w6 y6
  have r8 : s7.step false h false = .ok { s7.give_back (s7.old q) with old := Room.set s7.old q 0, rest := Room.set s7.rest h (.lock (.give (serviceOf q)) :: .lock .release :: .fin :: []) } := by
    unfold Room.step; rw [k7]
  have b47 : Beside h s4 s7 := b5.trans (b6.trans b7)
  have b03 : Beside h s s3 := b1.trans (b2.trans b3)
  have hold : s7.old q = s.mem q := by rw [b47.old, m4, b03.mem]
  have hpool : s7.pool = s.pool := by rw [b47.pool, p4, b03.pool]
  have hpush : s7.pool.push (s7.old q) = ({ s.pool with free := s.pool.free + s.mem q }, true) := by
    rw [hpool, hold]; unfold Pool.push; rw [if_pos hf]
  have hasl : s7.asleep = s.asleep := by rw [b47.asleep, a4, b03.asleep]
  generalize e8 : ({ s7.give_back (s7.old q) with old := Room.set s7.old q 0, rest := Room.set s7.rest h (.lock (.give (serviceOf q)) :: .lock .release :: .fin :: []) } : Room) = s8 at r8
  have gb := give_back_same s7 (s7.old q)
  have k8 : s8.rest h = .lock (.give (serviceOf q)) :: .lock .release :: .fin :: [] := by rw [← e8]; simp [Room.set]
  have t8 : ∀ u, u ≠ h → s8.rest u = s7.rest u := by intro u hu; rw [← e8]; simp [Room.set, hu]
  have l8 : s8.locks = s7.locks := by rw [← e8]; exact gb.2.1
  have c8 : s8.control = s7.control := by rw [← e8]; exact gb.1
  have p8 : s8.pool = { s.pool with free := s.pool.free + s.mem q } := by
    rw [← e8]
    show (s7.give_back (s7.old q)).pool = _
    unfold Room.give_back
    rw [if_neg (by omega)]
    show (s7.pool.push (s7.old q)).1 = _
    rw [hpush]
  have a8 : s8.asleep t = some true := by
    rw [← e8]
    show (s7.give_back (s7.old q)).asleep t = _
    unfold Room.give_back
    rw [if_neg (by omega)]
    dsimp only
    rw [hpush, if_pos rfl, hasl, ha]
    rfl
  have y8 : (s8.locks.lock (serviceOf q)).refs = 0 := by
    rw [l8, o7 _ hsa, o6 _ hsa, o5 _ hsa, l4, o3 _ hsa]; exact y2
  obtain ⟨s9, r9, b9, k9, c9, w9, x9, o9⟩ := help_give false k8 (by rw [l8]; exact w7) y8
  have cc : s9.control = { s.control with readers := s.control.readers + 1 } := by
    rw [c9, c8, c7, c6, c5, c4, c3, c2, c1]
  obtain ⟨s10, r10, b10, k10, l10, c10⟩ := help_release (m := s.control.readers) false k9 (by rw [cc]; exact hc) (by rw [cc])
  have r11 : s10.step false h false = .ok { s10 with rest := Room.set s10.rest h [] } := by
    unfold Room.step; rw [k10]
  have hrt : s10.rest t = .page p undo :: k := by
    rw [b10.rest t hne, b9.rest t hne, t8 t hne, b47.rest t hne, t4 t hne, b03.rest t hne]; exact hr
  have hpt : s10.pool = { s.pool with free := s.pool.free + s.mem q } := by rw [b10.pool, b9.pool, p8]
  have hat : s10.asleep t = some true := by rw [b10.asleep, b9.asleep]; exact a8
  generalize e11 : ({ s10 with rest := Room.set s10.rest h [] } : Room) = s11 at r11
  have hrt' : s11.rest t = .page p undo :: k := by rw [← e11]; simp [Room.set, hne, hrt]
  have hpt' : s11.pool = { s.pool with free := s.pool.free + s.mem q } := by rw [← e11]; exact hpt
  have hat' : s11.asleep t = some true := by rw [← e11]; exact hat
  have hrh' : s11.rest h = [] := by rw [← e11]; simp [Room.set]
  have hfr : 0 < s11.pool.free := by rw [hpt']; show 0 < s.pool.free + s.mem q; omega
  have r12 : s11.step false t false = .ok (s11.got t p { s11.pool with free := s11.pool.free - 1 } k) := by
    unfold Room.step
    rw [hrt']
    dsimp only
    rw [hat']
    dsimp only
    rw [Bool.true_or, if_pos rfl, if_pos hfr]
  refine ⟨s11.got t p { s11.pool with free := s11.pool.free - 1 } k, ?_, ?_, ?_, ?_⟩
  · show run false n s ((h, false) :: (h, false) :: (h, false) :: (h, false) :: (h, false) :: (h, false) :: (h, false) :: (h, false) ::
      (h, false) :: (h, false) :: (h, false) :: (t, false) :: []) = _
    rw [run_cons hh r1, run_cons hh r2, run_cons hh r3, run_cons hh r4, run_cons hh r5, run_cons hh r6, run_cons hh r7, run_cons hh r8,
      run_cons hh r9, run_cons hh r10, run_cons hh r11, run_cons ht r12]
    rfl
  · simp [Room.got, Room.set]
  · simp [Room.got, Room.set]
  · simp [Room.got, Room.set, Ne.symm hne, hrh']

end Verif.C81
