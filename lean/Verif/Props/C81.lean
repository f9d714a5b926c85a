import Verif.Proofs.C81Hang

/-! C81: a writer waits for memory only while there is none, and not for ever.

`Full` (Spec/C81.lean) is false, `C81_false`: a writer waits while it holds the lock of
its partition, so when the memory is in that partition nobody can ever give it back.
What holds: if all that is asked for fits, or there is no limit, or calls are to fail
instead, threads that keep the order of C59 never hang (`C81_enough_partial`); calls fail
only if that is asked for (`C81_failure_partial`); if the cache is as big as the limit and
nobody trims it a thread waits only while it has to (`C81_need_partial`); and the refresh
of a partition nobody has locked ends the waiting (`C81_helps_partial`).  Missing: waiting
for a partition that is locked by others, who will give it back. -/
namespace Verif.C81
open Act

/-- No limit, calls that fail, or memory for all: nobody hangs. -/
theorem C81_enough_partial (c : Limits) (n : Nat) (prog : Nat → List Job)
    (hc : c.limit = false ∨ c.error = true ∨ demand n prog * c.page_size < c.wm + c.page_size)
    (hu : ∀ t, t < n → Upwards (prog t)) : NoHang false c n prog := by
  intro sched
  have hcalm : Calm n (start c prog) := by
    refine ⟨fun t => rfl, ?_⟩
    rcases hc with h | h | h
    · exact .inl h
    · exact .inr (.inl h)
    · right; right
      rw [over_need]
      show (0 + demand n prog) * c.page_size < c.wm + c.page_size
      rw [Nat.zero_add]; exact h
  obtain ⟨s, g, h1, h2, h3⟩ := calm_run sched _ _ (rinv_start c n prog hu) hcalm
  exact ⟨s, h1, calm_finish _ _ _ h2 h3 (Nat.le_refl _)⟩

/-- Two writers and a refresh, with a limit of three pages. -/
example : ∃ (c : Limits) (n : Nat) (prog : Nat → List Job),
    (c.limit = true ∧ c.error = false ∧ demand n prog * c.page_size < c.wm + c.page_size ∧ 0 < demand n prog) ∧
    (∀ t, t < n → Upwards (prog t)) := by
  refine ⟨⟨10, 100, true, false, 30⟩, 3,
    fun t => if t = 0 then [.write [(1, 1), (2, 1)]] else if t = 1 then [.write [(2, 1)]] else [.refresh 1], ⟨rfl, rfl, by decide, by decide⟩, ?_⟩
  intro t ht
  have : t = 0 ∨ t = 1 ∨ t = 2 := by omega
  rcases this with e | e | e <;> subst e <;> simp [Upwards, Job.calls, C59.Upwards]

/-- Calls fail for want of memory only if that is asked for and there is a limit that
is too low.  Any programs, any schedule. -/
theorem C81_failure_partial (first : Bool) (c : Limits) (n : Nat) (prog : Nat → List Job)
    (hc : c.limit = false ∨ c.error = false ∨ demand n prog * c.page_size < c.wm + c.page_size)
    (sched : List (Nat × Bool)) (s : Room) (hs : run first n (start c prog) sched = .ok s) (t : Nat) : s.failed t = 0 := by
  have hroomy : c.limit = false ∨ demand n prog * c.page_size < c.wm + c.page_size → s.failed t = 0 := by
    intro h
    have hr : Roomy n (start c prog) := by
      rcases h with h | h
      · exact .inl h
      · right
        rw [over_need]
        show (0 + demand n prog) * c.page_size < c.wm + c.page_size
        rw [Nat.zero_add]; exact h
    rw [roomy_run sched _ _ hr hs]; rfl
  rcases hc with h | h | h
  · exact hroomy (.inl h)
  · rw [failed_run sched _ _ h hs]; rfl
  · exact hroomy (.inr h)

/-- A check of the state after a schedule. -/
def holds (r : Res Room) (p : Room → Bool) : Bool :=
  match r with
  | .ok s => p s
  | _ => false

theorem holds_ok {r : Res Room} {p : Room → Bool} (h : holds r p = true) : ∃ s, r = .ok s ∧ p s = true := by
  cases r with
  | ok s => exact ⟨s, rfl, h⟩
  | err m => cases h
  | abort m => cases h
  | ub m => cases h

/-- Two writes to one partition, with room for one page. -/
def twice : Nat → List Job := fun t => if t = 0 then [.write [(1, 1)], .write [(1, 1)]] else []

/-- One page, and a cache of ten. -/
def onePage : Limits := ⟨1, 10, true, false, 1⟩

example : ∃ s, run false 1 (start onePage twice) (List.replicate 9 (0, false)) = .ok s ∧ s.asleep 0 = some false := by
  obtain ⟨s, h1, h2⟩ := holds_ok (r := run false 1 (start onePage twice) (List.replicate 9 (0, false)))
    (p := fun s => decide (s.asleep 0 = some false)) (by decide +kernel)
  exact ⟨s, h1, of_decide_eq_true h2⟩

/-- If calls are to fail the second write does. -/
example : ∃ s, run false 1 (start { onePage with error := true } twice) (List.replicate 12 (0, false)) = .ok s ∧
    s.failed 0 = 1 ∧ s.rest 0 = [] := by
  obtain ⟨s, h1, h2⟩ := holds_ok (r := run false 1 (start { onePage with error := true } twice) (List.replicate 12 (0, false)))
    (p := fun s => decide (s.failed 0 = 1 ∧ s.rest 0 = [])) (by decide +kernel)
  exact ⟨s, h1, of_decide_eq_true h2⟩

/-- With a cache as big as the limit, and nobody to trim it, threads wait only while
they have to.  Any programs, any schedule. -/
theorem C81_need_partial (first : Bool) (c : Limits) (n : Nat) (prog : Nat → List Job)
    (hp : 0 < c.page_size) (hc : c.wm ≤ c.cache) (hg : ∀ t, .gc ∉ prog t)
    (sched : List (Nat × Bool)) (s : Room) (hs : run first n (start c prog) sched = .ok s) : Needful s := by
  have h := just_run sched _ _ (just_start c prog hc hp hg) hs
  intro t w hw
  exact ⟨(h.fair.needy t w hw).2.1, (h.fair.needy t w hw).2.2⟩

example : 0 < onePage.page_size ∧ onePage.wm ≤ onePage.cache ∧ ∀ t, .gc ∉ twice t := by
  refine ⟨by decide, by decide, fun t => ?_⟩
  unfold twice
  split <;> simp

/-- A thread waits for a page.  A refresh of a partition that has pages and is not
locked makes room, and wakes it: it gets its page. -/
theorem C81_helps_partial (n : Nat) (s : Room) (t h q p : Nat) (undo : List Act) (k : List Deed) (w : Bool)
    (ht : t < n) (hh : h < n) (hne : t ≠ h) (hr : s.rest t = .page p undo :: k) (ha : s.asleep t = some w)
    (hq : s.rest h = Deed.refresh_run q) (hc : s.control.writer = none) (hw : s.locks.wait h = none)
    (h1 : (s.locks.lock (serviceOf q)).locker = none) (h2 : (s.locks.lock (accessOf q)).locker = none)
    (hm : 0 < s.mem q) (hf : s.pool.free * s.pool.page_size < s.pool.cache) :
    ∃ s', run false n s (List.replicate 11 (h, false) ++ [(t, false)]) = .ok s' ∧ s'.rest t = k ∧ s'.asleep t = none ∧ s'.rest h = [] :=
  refresh_helps ht hh hne hr ha hq hc hw h1 h2 hm hf

/-- A write to partition 1, then one to partition 2, and a refresh of partition 1. -/
def other : Nat → List Job := fun t => if t = 0 then [.write [(1, 1)], .write [(2, 1)]] else [.refresh 1]

example : ∃ s, run false 2 (start onePage other) (List.replicate 9 (0, false)) = .ok s ∧
    (∃ p undo k w, s.rest 0 = .page p undo :: k ∧ s.asleep 0 = some w) ∧ s.rest 1 = Deed.refresh_run 1 ∧
    s.control.writer = none ∧ s.locks.wait 1 = none ∧ (s.locks.lock (serviceOf 1)).locker = none ∧
    (s.locks.lock (accessOf 1)).locker = none ∧ 0 < s.mem 1 ∧ s.pool.free * s.pool.page_size < s.pool.cache := by
  obtain ⟨s, h1, h2⟩ := holds_ok (r := run false 2 (start onePage other) (List.replicate 9 (0, false)))
    (p := fun s => decide ((s.rest 0 = [.page 2 [.give 5, .release], .lock (.give 5), .lock .release, .fin] ∧ s.asleep 0 = some false) ∧
      s.rest 1 = Deed.refresh_run 1 ∧
      s.control.writer = none ∧ s.locks.wait 1 = none ∧ (s.locks.lock (serviceOf 1)).locker = none ∧
      (s.locks.lock (accessOf 1)).locker = none ∧ 0 < s.mem 1 ∧ s.pool.free * s.pool.page_size < s.pool.cache)) (by decide +kernel)
  have h2 := of_decide_eq_true h2
  exact ⟨s, h1, ⟨_, _, _, _, h2.1.1, h2.1.2⟩, h2.2⟩

/-- Without a cache pages are given back to the system and nobody is woken: who waits
waits for ever, whatever all threads do. -/
theorem C81_no_cache_false (first : Bool) (n : Nat) (s : Room) (t p : Nat) (undo : List Act) (k : List Deed)
    (hc : s.pool.cache = 0) (hf : s.pool.free = 0) (hr : s.rest t = .page p undo :: k) (ha : s.asleep t ≠ none)
    (sched : List (Nat × Bool)) (s' : Room) (hs : run first n s sched = .ok s') :
    s'.rest t = .page p undo :: k ∧ s'.asleep t ≠ none := by
  have := run_inv (I := Bare t (.page p undo :: k)) (fun a b u w _ h h' => bare_step a b u w h h') sched s s' ⟨hc, hf, hr, ha⟩ hs
  exact ⟨this.rest, this.asleep⟩

/-- So it waits though nothing is in use. -/
theorem C81_cache_false : ∃ sched s, run false 2 (start { onePage with cache := 0 } other) sched = .ok s ∧ s.pool.count = 0 ∧
    ¬ Needful s ∧ ∀ more s', run false 2 s more = .ok s' → s'.rest 0 ≠ [] := by
  obtain ⟨s, h1, h2⟩ := holds_ok (r := run false 2 (start { onePage with cache := 0 } other) (List.replicate 9 (0, false) ++ List.replicate 11 (1, false)))
    (p := fun s => decide (s.rest 0 = [.page 2 [.give 5, .release], .lock (.give 5), .lock .release, .fin] ∧ s.asleep 0 = some false ∧
      s.pool = ⟨1, 0, true, false, 1, 0, 0⟩)) (by decide +kernel)
  obtain ⟨h3, h4, h5⟩ := of_decide_eq_true h2
  refine ⟨_, s, h1, by rw [h5], ?_, ?_⟩
  · intro hn
    have := (hn 0 false h4).1
    rw [h5] at this
    exact absurd this (by decide)
  · intro more s' hs
    have := C81_no_cache_false false 2 s 0 _ _ _ (by rw [h5]) (by rw [h5]) h3 (by rw [h4]; simp) more s' hs
    rw [this.1]
    simp

/-- The same, and then DEBUG MEMORY_GC. -/
def trimmed : Nat → List Job := fun t => if t = 0 then [.write [(1, 1)], .write [(2, 1)]] else [.refresh 1, .gc]

/-- DEBUG MEMORY_GC takes the free pages away from one that was woken for them: it goes
back to sleep, and waits though nothing is in use. -/
theorem C81_gc_false : ∃ sched s, run false 2 (start onePage trimmed) sched = .ok s ∧ s.pool.count = 0 ∧ ¬ Needful s := by
  obtain ⟨s, h1, h2⟩ := holds_ok (r := run false 2 (start onePage trimmed) (List.replicate 9 (0, false) ++ List.replicate 13 (1, false) ++ [(0, false)]))
    (p := fun s => decide (s.asleep 0 = some false ∧ s.pool = ⟨1, 10, true, false, 1, 0, 0⟩)) (by decide +kernel)
  obtain ⟨h4, h5⟩ := of_decide_eq_true h2
  refine ⟨_, s, h1, by rw [h5], ?_⟩
  intro hn
  have := (hn 0 false h4).1
  rw [h5] at this
  exact absurd this (by decide)

/-- The writer of `twice` holds the lock of the partition that has the memory: no
refresh can help it. -/
theorem C81_stuck : ∃ s, run false 1 (start onePage twice) (List.replicate 9 (0, false)) = .ok s ∧
    ∀ ps, ¬ Finishes false 2 (helped s 1 ps) := by
  obtain ⟨s, h1, h2⟩ := holds_ok (r := run false 1 (start onePage twice) (List.replicate 9 (0, false)))
    (p := fun s => decide (s.rest 0 = stuck ∧ s.asleep 0 = some false ∧ s.pool.free = 0 ∧ (s.locks.lock 3).locker = some 0 ∧
      s.locks.wait 0 = none ∧ s.locks.wait 1 = none)) (by decide +kernel)
  obtain ⟨h3, h4, h5, h6, h7, h8⟩ := of_decide_eq_true h2
  refine ⟨s, h1, ?_⟩
  have hmem : (∀ p, s.old p = 0) ∧ (∀ p, p ≠ 1 → s.mem p = 0) := by
    have e : run false 1 (start onePage twice) (List.replicate 9 (0, false)) = .ok s := h1
    have hI := run_inv (first := false) (n := 1) (I := fun x => (∀ p, x.old p = 0) ∧ (∀ p, p ≠ 1 → x.mem p = 0) ∧
        ∀ d ∈ x.rest 0, (∃ a, d = .lock a) ∨ (∃ u, d = .page 1 u) ∨ d = .fin) ?_ _ _ _ ⟨fun _ => rfl, fun _ _ => rfl, ?_⟩ e
    · exact ⟨hI.1, hI.2.1⟩
    · intro a b t w ht ha hb
      have : t = 0 := by omega
      subst this
      obtain ⟨i1, i2, i3⟩ := ha
      unfold Room.step at hb
      cases hr : a.rest 0 with
      | nil => rw [hr] at hb; injection hb with hb; subst hb; exact ⟨i1, i2, i3⟩
      | cons d k =>
        rw [hr] at hb i3
        have hk : ∀ d ∈ k, (∃ a, d = .lock a) ∨ (∃ u, d = .page 1 u) ∨ d = .fin := fun d hd => i3 d (by simp [hd])
        rcases i3 d (by simp) with ⟨x, e⟩ | ⟨x, e⟩ | e
        · subst e
          dsimp only at hb
          split at hb
          · injection hb with hb; subst hb
            refine ⟨i1, i2, ?_⟩
            dsimp only
            split
            · simpa [Room.set] using hk
            · rw [hr]; exact i3
          all_goals cases hb
        · subst e
          dsimp only at hb
          split at hb
          · split at hb
            · injection hb with hb; subst hb
              refine ⟨i1, ?_, by simpa [Room.got, Room.set] using hk⟩
              intro p hp
              simp [Room.got, Room.set, hp, i2 p hp]
            · injection hb with hb; subst hb; exact ⟨i1, i2, by rw [hr]; exact i3⟩
            · injection hb with hb; subst hb
              refine ⟨i1, i2, ?_⟩
              intro d hd
              simp only [Room.set, if_true] at hd
              rcases List.mem_append.1 hd with hd | hd
              · simp only [Deed.locks, List.mem_map] at hd
                obtain ⟨y, _, e⟩ := hd
                exact .inl ⟨y, e.symm⟩
              · exact hk d ((List.dropWhile_sublist _).mem hd)
          · split at hb
            · split at hb
              · injection hb with hb; subst hb
                refine ⟨i1, ?_, by simpa [Room.got, Room.set] using hk⟩
                intro p hp
                simp [Room.got, Room.set, hp, i2 p hp]
              · injection hb with hb; subst hb; exact ⟨i1, i2, by rw [hr]; exact i3⟩
            · injection hb with hb; subst hb; exact ⟨i1, i2, by rw [hr]; exact i3⟩
        · subst e
          injection hb with hb; subst hb
          exact ⟨i1, i2, by simpa [Room.set] using hk⟩
    · intro d hd
      have hd : d ∈ deeds [.write [(1, 1)], .write [(1, 1)]] := hd
      simp [deeds, Job.deeds, Deed.engine_write, Deed.events, Deed.locks, engine_lock, engine_unlock, List.replicate] at hd
      grind
  intro ps ⟨more, _, s', hs, hdone⟩
  have hst : Stuck (helped s 1 ps) := by
    refine ⟨by simp [helped, Room.set, h3], ?_, h5, h6, h7, hmem.1, hmem.2, ?_, ?_⟩
    · show s.asleep 0 ≠ none; rw [h4]; simp
    · intro l w e
      have e : s.locks.wait 1 = some (l, w) := e
      rw [h8] at e; cases e
    · show tame ((helped s 1 ps).rest 1)
      simp only [helped, Room.set, if_true]
      exact tame_refreshes ps
  have := run_inv (n := 2) (I := Stuck) (fun a b u w hu h h' => stuck_step a b u w hu h h') more _ s' hst hs
  have h0 := hdone 0 (by decide)
  rw [this.rest] at h0
  cases h0

/-- So the full property is false: two writes to one partition hang. -/
theorem C81_false : ¬ Full := by
  intro hf
  obtain ⟨s, h1, h2⟩ := C81_stuck
  obtain ⟨s', h3, _, _, ps, h4⟩ := hf onePage 1 twice (by decide) (by
      intro t ht
      have : t = 0 := by omega
      subst this
      simp [twice, Upwards, Job.calls, C59.Upwards]) (by
      intro t ht es hes
      have : t = 0 := by omega
      subst this
      simp [twice] at hes
      subst hes
      unfold Fits
      decide) (List.replicate 9 (0, false))
  rw [h1] at h3
  injection h3 with h3
  subst h3
  exact h2 ps h4

end Verif.C81
