import Verif.Proofs.DescrAcc
import Mathlib.Data.List.Perm.Subperm

/-! Opening, freeing and histories for C93. -/
namespace Verif.C93
open Verif.Descr Spec.C93

variable {N N' : Slot → Prop} {k k' : Nat} {R : List (Nat × Part)} {n : Nat}

theorem a_files {w w' : World} {R' : List (Nat × Part)} {n' : Nat} (h : A N k R n w) (hs : Sane w') (h1 : w'.fds = w.fds)
    (h3 : ∀ s, ¬ N s → w'.files s = w.files s) (h4 : w'.workers = n') (h5 : w'.refs = R') : A N k R' n' w' := by
  obtain ⟨L, hl, ha⟩ := h.acc
  refine ⟨hs, ⟨L, hl, fun d hd => (ha d (h1 ▸ hd)).imp id fun ⟨t, ht, hf⟩ => ⟨t, ht, ?_⟩⟩, h5, h4⟩
  rw [h3 t ht, hf]

theorem a_move1 {w w' : World} {R' : List (Nat × Part)} {a b : Slot} (h : A N k R n w) (hab : a ≠ b) (hb : N b)
    (h1 : w'.fds = w.fds) (h2 : w'.next = w.next)
    (h3 : w'.files = fun t => if t = a then none else if t = b then w.files a else w.files t)
    (h4 : w'.workers = n) (h5 : w'.refs = R') : A (plus a (minus b N)) k R' n w' := by
  obtain ⟨L, hl, ha⟩ := h.acc
  refine ⟨sane_move h.sane h1 h2 h3 hab, ⟨L, hl, fun d hd => (ha d (h1 ▸ hd)).imp id fun ⟨t, ht, hf⟩ => ?_⟩, h5, h4⟩
  rw [h3]
  by_cases e : t = a
  · subst e
    exact ⟨b, fun hh => hh.elim (fun e => hab e.symm) (fun e => e.1 rfl), by
      show (if b = t then none else if b = b then w.files t else w.files b) = _
      rw [if_neg (Ne.symm hab), if_pos rfl, hf]⟩
  · have e2 : t ≠ b := fun e => ht (e ▸ hb)
    exact ⟨t, fun hh => hh.elim e (fun e => ht e.2), by
      show (if t = a then none else if t = b then w.files a else w.files t) = _
      rw [if_neg e, if_neg e2, hf]⟩

/-- While partitions are opened: the log is not open yet. -/
def NS (R : List (Nat × Part)) : Slot → Prop
  | .lock | .log => False
  | .part id => ∀ p, (id, p) ∈ R → p.id = false
  | _ => True

theorem dead_NS {s : Slot} (h : dead R n s) : NS R s := by
  cases s <;> first | exact h | trivial

theorem t_openParts : ∀ (ps R : List (Nat × Part)), (ps.map (·.1) ++ R.map (·.1)).Nodup →
    Tri (A (NS R) k R n) (openParts ps) (fun w => ∃ R', A (NS R') k R' n w ∧ (R'.map (·.1)).Nodup)
      (fun w => ∃ R', A (NS R') (k + 1) R' n w ∧ (R'.map (·.1)).Nodup)
  | [], R, hn => fun w h => ⟨R, h, by simpa using hn⟩
  | (id, p) :: ps, R, hn => by
    have hnR : (R.map (·.1)).Nodup := (List.nodup_append.1 hn).2.1
    have hnew : ∀ q, (id, q) ∉ R := fun q hq =>
      (List.nodup_append.1 hn).2.2 id (by simp) id (List.mem_map.2 ⟨_, hq, rfl⟩) rfl
    have hn' : (ps.map (·.1) ++ ((id, p) :: R).map (·.1)).Nodup := by
      simp only [List.map_cons, List.cons_append] at hn ⊢
      exact (List.perm_middle.nodup_iff).2 hn
    have hsub : ∀ {q} s, NS ((id, q) :: R) s → NS R s := by
      intro q s hs
      cases s with
      | part j => exact fun p hp => hs p (List.mem_cons_of_mem _ hp)
      | _ => exact hs
    refine tri_bind (t_init trivial) ?_
    cases hp : p.id with
    | true =>
      refine tri_bind (tri_choose (fun _ => tri_conseq (t_partOpen (s := .found id) trivial) (fun _ h => h) (fun _ h => h) ?_)
        (fun h => (by cases h))) ?_
      · intro w h
        refine ⟨R, a_mono (a_lose (.found id) h) (fun s hs => ?_) (Nat.le_refl _), hnR⟩
        by_cases e : s = .found id
        · exact .inl e
        · exact .inr ⟨e, hs⟩
      · refine tri_bind (tri_modify fun w h => ?_) (t_openParts ps ((id, p) :: R) hn')
        refine a_mono (a_move1 (R' := (id, p) :: R) (a := .found id) (b := .part id) h nofun
          ⟨nofun, fun q hq => absurd hq (hnew q)⟩ rfl rfl rfl h.workers (by rw [← h.refs]; rfl)) ?_ (Nat.le_refl _)
        intro s hs
        by_cases e : s = .found id
        · exact .inl e
        · refine .inr ⟨?_, e, hsub s hs⟩
          rintro rfl
          have := hs p List.mem_cons_self
          rw [hp] at this
          cases this
    | false =>
      refine tri_bind (tri_choose (fun h => (by cases h)) (fun _ => tri_conseq (t_temporary trivial) (fun _ h => h)
        (fun _ h => h) fun w h => ⟨R, a_mono h (fun _ h => h) (by omega), hnR⟩)) ?_
      refine tri_bind (tri_modify fun w h => ?_) (t_openParts ps ((id, p) :: R) hn')
      refine a_mono (a_files (R' := (id, p) :: R) h (sane_move (a := .found id) (b := .part id) h.sane rfl rfl rfl nofun)
        rfl ?_ h.workers (by rw [← h.refs]; rfl)) (fun s hs => hsub s hs) (Nat.le_refl _)
      intro s hs
      show (if s = .found id then none else if s = .part id then w.files (.found id) else w.files s) = w.files s
      have e1 : s ≠ .found id := by rintro rfl; exact hs trivial
      have e2 : s ≠ .part id := by rintro rfl; exact hs fun q hq => absurd hq (hnew q)
      rw [if_neg e1, if_neg e2]

theorem t_readDir (hd : N .dir) : Tri (A N k R n) readDir (A N k R n) (A N k R n) :=
  tri_bind (t_init hd) (t_guarded (tri_bind (errM (t_create hd)) t_check))

theorem t_walOpen {f s : Bool} (h1 : N .walNew) (h2 : N .walPrev) (h3 : N .dir) (h4 : N .wal) :
    Tri (A N k R n) (walOpen f s) (A (minus .wal N) k R n) (A (minus .wal N) (k + 1) R n) := by
  have e1 : ∀ w, A N k R n w → A (minus .wal N) (k + 1) R n w := fun w h => a_mono h (fun _ h => h.2) (by omega)
  have e2 : ∀ w, A (minus .wal N) k R n w → A (minus .wal N) (k + 1) R n w :=
    fun w h => a_mono h (fun _ h => h) (by omega)
  refine tri_bind (tri_conseq t_check (fun _ h => h) (fun _ h => h) e1) ?_
  refine tri_bind (tri_conseq (t_readDir h3) (fun _ h => h) (fun _ h => h) e1) ?_
  refine tri_choose (fun _ => ?_) (fun _ => ?_)
  · exact tri_bind (t_init h4) (tri_bind (tri_conseq (t_open h4) (fun _ h => h) (fun _ h => h) e1)
      (tri_conseq t_check (fun _ h => h) (fun _ h => h) e2))
  · exact tri_conseq (t_rotate h1 h2) (fun _ h => h) (fun _ h => h)
      fun w h => a_mono h (fun _ h => h) (by split <;> omega)

theorem t_walNext (hc : N .cursor) : ∀ m, Tri (A (minus .cursor N) k R n) (walNext m) (A (minus .cursor N) k R n)
    (A (minus .cursor N) k R n)
  | 0 => t_check
  | m + 1 => tri_bind t_check (tri_bind t_close' (tri_bind (t_init hc) (tri_bind (errM (t_open hc)) (t_walNext hc m))))

theorem t_replay (hc : N .cursor) (m : Nat) : Tri (A N k R n) (replay m) (A N k R n) (A N k R n) :=
  tri_bind (t_init hc) (t_guarded (tri_bind (errM (t_open hc)) (t_walNext hc m)))

theorem t_lock {s : Slot} : Tri (A N k R n) (fileLock s) (A N k R n) (A N k R n) := by
  unfold fileLock
  refine tri_bind t_check ?_
  intro w h
  dsimp only
  cases w.files s with
  | none => exact h
  | some d =>
    dsimp only
    split <;> rename_i h' <;> revert h' <;> split <;> intro h' <;> injections <;> subst_vars <;>
      exact ⟨h.sane, h.acc, h.refs, h.workers⟩

theorem t_start (a : Start) (ha : (a.parts.map (·.1)).Nodup) :
    Tri (A (fun _ => True) 0 [] 0) (start a) (Good 0) (Good 1) := by
  have e0 : ∀ {N : Slot → Prop} w, (∀ s, dead [] 0 s → N s) → A N 0 [] 0 w → Good 1 w := fun w hN h =>
    good_of (a_mono h hN (by omega)) List.nodup_nil
  have i1 : ∀ s, dead [] 0 s → minus .lock (fun _ => True) s := fun s hs => ⟨by rintro rfl; exact hs, trivial⟩
  have i2 : ∀ s, dead [] 0 s → NS [] s := fun s hs => dead_NS hs
  refine tri_bind (tri_conseq t_check (fun _ h => h) (fun _ h => h) fun w h => e0 w (fun _ _ => trivial) h) ?_
  refine tri_bind (tri_conseq (t_open trivial) (fun _ h => h) (fun _ h => h) fun w h => e0 w (fun _ _ => trivial) h) ?_
  refine tri_bind (tri_conseq t_lock (fun _ h => h) (fun _ h => h) fun w h => e0 w i1 h) ?_
  refine tri_bind (tri_conseq (t_temporary ⟨nofun, trivial⟩) (fun _ h => h) (fun _ h => h) fun w h => e0 w i1 h) ?_
  refine tri_bind (tri_conseq t_check (fun _ h => h) (fun _ h => h) fun w h => e0 w i1 h) ?_
  refine tri_bind (Q := A (NS []) 0 [] 0) (tri_choose (fun _ => ?_) (fun _ => ?_)) ?_
  · refine tri_conseq (t_create ⟨nofun, trivial⟩) (fun _ h => h) ?_ fun w h => e0 w i1 h
    exact fun w h => a_mono h (fun s hs => ⟨by rintro rfl; exact hs, by rintro rfl; exact hs, trivial⟩) (Nat.le_refl _)
  · exact fun w h => a_mono h (fun s hs => ⟨by rintro rfl; exact hs, trivial⟩) (Nat.le_refl _)
  refine tri_bind (tri_conseq t_check (fun _ h => h) (fun _ h => h) fun w h => e0 w i2 h) ?_
  refine tri_bind (tri_conseq (t_readDir trivial) (fun _ h => h) (fun _ h => h) fun w h => e0 w i2 h) ?_
  refine tri_bind (Q := A (NS []) 0 [] 0) (tri_modify fun w h => ?_) ?_
  · refine a_files h (k_found a.parts w h.sane) rfl ?_ h.workers h.refs
    intro s hs
    cases s <;> first | rfl | exact absurd trivial hs
  refine tri_bind (tri_conseq t_check (fun _ h => h) (fun _ h => h) fun w h => e0 w i2 h) ?_
  have e1 : ∀ w, (∃ R', A (NS R') 1 R' 0 w ∧ (R'.map (·.1)).Nodup) → Good 1 w := fun w ⟨R, h, hn⟩ =>
    good_of (a_mono h (fun s hs => dead_NS hs) (Nat.le_refl _)) hn
  refine tri_bind (tri_conseq (t_openParts a.parts [] (by simpa using ha)) (fun _ h => h) (fun _ h => h) e1) ?_
  rintro w ⟨R, hA, hn⟩
  revert w
  suffices h : Tri (A (NS R) 0 R 0) _ (Good 0) (Good 1) from fun w hw => h w hw
  have i3 : ∀ {n} s, dead R n s → minus .wal (NS R) s := fun s hs => ⟨by rintro rfl; exact hs, dead_NS hs⟩
  refine tri_bind (Q := A (minus .wal (NS R)) 0 R 0) (tri_choose (fun _ => ?_) (fun _ w h => minus_of h)) ?_
  · refine tri_bind (tri_conseq (t_walOpen trivial trivial trivial trivial) (fun _ h => h) (fun _ h => h)
      fun w h => good_of (a_mono h i3 (Nat.le_refl _)) hn) ?_
    exact tri_conseq (t_replay ⟨nofun, trivial⟩ _) (fun _ h => h) (fun _ h => h)
      fun w h => good_of (a_mono h i3 (by omega)) hn
  · refine tri_bind (Q := A (minus .wal (NS R)) 0 R a.workers) (tri_modify fun w h => ?_) ?_
    · refine a_files h (sane_forget h.sane rfl rfl startWorkers_files) rfl ?_ rfl h.refs
      intro s hs
      cases s <;> first | rfl | exact absurd ⟨nofun, trivial⟩ hs
    · exact tri_conseq t_check (fun _ h => h) (fun _ h => good_of (a_mono h i3 (Nat.le_refl _)) hn)
        fun _ h => good_of (a_mono h i3 (by omega)) hn

theorem t_stop {E : World → Prop} : ∀ (m : Nat) {N : Slot → Prop}, (∀ r, N (.origin r)) → Tri (A N k R n) (stopWorkers m)
    (A (fun s => N s ∨ ∃ r, r < m ∧ s = .merged r) k R n) E
  | 0, N, _ => fun w h => a_mono h (fun s hs => hs.elim id fun ⟨_, h, _⟩ => absurd h (Nat.not_lt_zero _)) (Nat.le_refl _)
  | m + 1, N, ho => by
    refine tri_bind (t_reset (ho m)) (tri_conseq (t_stop m fun r => .inr (ho r)) (fun _ h => h) (fun w h => ?_) fun _ h => h)
    refine a_mono h ?_ (Nat.le_refl _)
    rintro s (hs | ⟨r, hr, rfl⟩)
    · exact .inl (.inr hs)
    · by_cases e : r = m
      · subst e; exact .inl (.inl rfl)
      · exact .inr ⟨r, by omega, rfl⟩

theorem t_closeParts {E : World → Prop} : ∀ (ps : List (Nat × Part)) {N : Slot → Prop}, Tri (A N k R n) (closeParts ps)
    (A (fun s => N s ∨ ∃ x ∈ ps, s = .part x.1) k R n) E
  | [], N => fun w h => a_mono h (fun s hs => hs.elim id fun ⟨_, h, _⟩ => (by cases h)) (Nat.le_refl _)
  | (id, p) :: ps, N => by
    refine tri_bind t_close (tri_conseq (t_closeParts ps) (fun _ h => h) (fun w h => ?_) fun _ h => h)
    refine a_mono h ?_ (Nat.le_refl _)
    rintro s (hs | ⟨x, hx, rfl⟩)
    · exact .inl (.inr hs)
    · rcases List.mem_cons.1 hx with rfl | hx
      · exact .inl (.inl rfl)
      · exact .inr ⟨x, hx, rfl⟩

theorem a_all {w : World} (h : A (fun _ => True) k R n w) : w.fds.length ≤ k := by
  obtain ⟨L, hl, ha⟩ := h.acc
  have hsub : w.fds ⊆ L := fun d hd => (ha d hd).elim id fun ⟨s, hs, _⟩ => absurd trivial hs
  exact Nat.le_trans (List.subperm_of_subset h.sane.1 hsub).length_le hl

theorem t_free (k : Nat) {E : World → Prop} : Tri (Good k) free (fun w => w.fds.length ≤ k) E := by
  intro w0 hw0
  obtain ⟨h0, hn⟩ := hw0
  generalize hR : w0.refs = R at h0
  generalize hm : w0.workers = n at h0
  revert w0
  suffices h : Tri (A (dead R n) k R n) free (fun w => w.fds.length ≤ k) E from fun w _ _ _ hw => h w hw
  refine tri_bind (Q := A (fun s => dead R n s ∨ ∃ r, r < n ∧ s = .merged r) k R n) ?_ ?_
  · intro w h
    have := t_stop (E := E) w.workers (fun _ => trivial) w h
    rw [h.workers] at this
    beta_reduce
    rw [h.workers]
    exact this
  refine tri_bind (Q := A (fun s => dead R n s ∨ ∃ r, r < n ∧ s = .merged r) k R 0)
    (tri_modify fun w h => a_files h h.sane rfl (fun _ _ => rfl) rfl h.refs) ?_
  refine tri_bind (Q := A (fun s => (dead R n s ∨ ∃ r, r < n ∧ s = .merged r) ∨ ∃ x ∈ R, s = .part x.1) k R 0) ?_ ?_
  · intro w h
    have := t_closeParts (E := E) w.refs w h
    rw [h.refs] at this
    beta_reduce
    rw [h.refs]
    exact this
  refine tri_bind (Q := A (fun s => (dead R n s ∨ ∃ r, r < n ∧ s = .merged r) ∨ ∃ x ∈ R, s = .part x.1) k [] 0)
    (tri_modify fun w h => a_files h h.sane rfl (fun _ _ => rfl) h.workers rfl) ?_
  refine tri_bind t_close ?_
  refine tri_bind (Q := A (plus .log fun s => (dead R n s ∨ ∃ r, r < n ∧ s = .merged r) ∨ ∃ x ∈ R, s = .part x.1) k [] 0)
    (tri_modify fun w h => ?_) ?_
  · refine a_files h (sane_forget h.sane rfl rfl forgetStored_files) rfl ?_ h.workers h.refs
    intro s hs
    cases s <;> first | rfl | exact absurd (.inr (.inl (.inl trivial))) hs
  refine tri_bind t_close (tri_conseq t_close (fun _ h => h) (fun w h => a_all (a_mono h ?_ (Nat.le_refl _))) fun _ h => h)
  intro s _
  cases s with
  | lock => exact .inl rfl
  | wal => exact .inr (.inl rfl)
  | log => exact .inr (.inr (.inl rfl))
  | merged r =>
    refine .inr (.inr (.inr (.inl ?_)))
    by_cases hr : r < n
    · exact .inr ⟨r, hr, rfl⟩
    · exact .inl (Nat.not_lt.1 hr)
  | part id =>
    refine .inr (.inr (.inr ?_))
    by_cases hx : ∃ x ∈ R, (Slot.part id) = .part x.1
    · exact .inr hx
    · exact .inl (.inl fun p hp => absurd ⟨_, hp, rfl⟩ hx)
  | _ => exact .inr (.inr (.inr (.inl (.inl trivial))))

/-- What a failure of an operation may cost. -/
abbrev cost (op : Op) : Nat := if Risky op then 1 else 0

theorem op1_run : ∀ (op : Op), Between op → Op1 (cost op) (run op)
  | .create id, _ => op1_create id
  | .download id, _ => op1_download id
  | .upload id, _ => op1_upload id
  | .dropCloud id, _ => op1_dropCloud id
  | .dropStorage id, _ => op1_dropStorage id
  | .dropReference id, _ => op1_dropReference id
  | .refresh r id, _ => op1_refresh r id
  | .refreshCommand id, _ => op1_command id
  | .rotate true, _ => op1_rotate true
  | .rotate false, _ => op1_rotate false
  | .temporary c, _ => op1_temporary c
  | .start _, h => h.elim
  | .free, h => h.elim

theorem good_io {w : World} {io : List Bool} (h : Good k w) : Good k { w with io := io } :=
  ⟨⟨h.1.sane, h.1.acc, rfl, rfl⟩, h.2⟩

theorem good_prev {w : World} (h : Good k w) : Good k (put .walPrev none w) := ⟨a_none trivial h.1, h.2⟩

theorem step_good {w w' : World} {op : Op} {io : List Bool} {b : Bool} (h : Good k w) (hb : Between op)
    (hs : step w op io = some (w', b)) : Good (k + if Risky op && b then 1 else 0) w' := by
  have := op1_run op hb k _ (good_io (io := io) h)
  unfold step at hs
  cases hm : run op { w with io := io } with
  | ok a v =>
    rw [hm] at this hs
    simp only [Option.some.injEq, Prod.mk.injEq] at hs
    obtain ⟨rfl, rfl⟩ := hs
    simpa using good_prev this
  | err v =>
    rw [hm] at this hs
    simp only [Option.some.injEq, Prod.mk.injEq] at hs
    obtain ⟨rfl, rfl⟩ := hs
    simpa using good_prev this
  | bad => rw [hm] at hs; cases hs

theorem failures_cons (op : Op) (io : List Bool) (h : List (Op × List Bool)) (b : Bool) (bs : List Bool) :
    failures ((op, io) :: h) (b :: bs) = (if Risky op && b then 1 else 0) + failures h bs := by
  unfold failures
  rw [List.zip_cons_cons, List.filter_cons]
  dsimp only
  by_cases hc : (Risky op && b) = true
  · rw [if_pos hc, if_pos hc, List.length_cons]; omega
  · rw [if_neg hc, if_neg hc]; omega

theorem runs_good : ∀ (h : List (Op × List Bool)) {k : Nat} {w w' : World} {bs : List Bool}, Good k w →
    (∀ x ∈ h, Between x.1) → runs w h = some (w', bs) → Good (k + failures h bs) w'
  | [], k, w, w', bs, hg, _, hr => by
    simp only [runs, Option.some.injEq, Prod.mk.injEq] at hr
    obtain ⟨rfl, rfl⟩ := hr
    exact hg
  | (op, io) :: h, k, w, w', bs, hg, hb, hr => by
    cases hs : step w op io with
    | none => simp [runs, hs] at hr
    | some x =>
      obtain ⟨w1, b⟩ := x
      cases hr2 : runs w1 h with
      | none => simp [runs, hs, hr2] at hr
      | some y =>
        obtain ⟨w2, bs2⟩ := y
        simp only [runs, hs, hr2, Option.bind_some, Option.map_some, Option.some.injEq, Prod.mk.injEq] at hr
        obtain ⟨rfl, rfl⟩ := hr
        have h1 := step_good hg (hb _ List.mem_cons_self) hs
        have h2 := runs_good h h1 (fun x hx => hb x (List.mem_cons_of_mem _ hx)) hr2
        rw [failures_cons]
        rwa [Nat.add_assoc] at h2

theorem init_A (io : List Bool) : A (fun _ => True) 0 [] 0 { init with io := io } :=
  ⟨sane_init, ⟨[], Nat.le_refl _, fun _ h => (by cases h)⟩, rfl, rfl⟩

theorem alive_good {h : List (Op × List Bool)} {w : World} {bs : List Bool} (ha : Alive h)
    (hr : runs init h = some (w, bs)) : Good (failures h bs) w := by
  obtain ⟨a, io, mid, rfl, hn, hb⟩ := ha
  have ht := t_start a hn _ (init_A io)
  cases hs : step init (.start a) io with
  | none => simp [runs, hs] at hr
  | some x =>
    obtain ⟨w1, b⟩ := x
    cases hr2 : runs w1 mid with
    | none => simp [runs, hs, hr2] at hr
    | some y =>
      obtain ⟨w2, bs2⟩ := y
      simp only [runs, hs, hr2, Option.bind_some, Option.map_some, Option.some.injEq, Prod.mk.injEq] at hr
      obtain ⟨rfl, rfl⟩ := hr
      rw [failures_cons]
      refine runs_good mid ?_ hb hr2
      have hs' : step init (.start a) io = match start a { init with io := io } with
        | .ok _ w => some (put .walPrev none w, false)
        | .err w => some (put .walPrev none w, true)
        | .bad => none := rfl
      rw [hs'] at hs
      cases hm : start a { init with io := io } with
      | ok u v =>
        rw [hm] at ht hs
        simp only [Option.some.injEq, Prod.mk.injEq] at hs
        obtain ⟨rfl, rfl⟩ := hs
        exact good_prev ht
      | err v =>
        rw [hm] at ht hs
        simp only [Option.some.injEq, Prod.mk.injEq] at hs
        obtain ⟨rfl, rfl⟩ := hs
        exact good_prev ht
      | bad => rw [hm] at hs; cases hs

theorem runs_append : ∀ (h1 h2 : List (Op × List Bool)) {w w' : World} {bs : List Bool},
    runs w (h1 ++ h2) = some (w', bs) → ∃ w1 bs1 bs2, runs w h1 = some (w1, bs1) ∧ runs w1 h2 = some (w', bs2) ∧
      bs = bs1 ++ bs2 ∧ bs1.length = h1.length
  | [], h2, w, w', bs, hr => ⟨w, [], bs, rfl, hr, rfl, rfl⟩
  | (op, io) :: h1, h2, w, w', bs, hr => by
    rw [List.cons_append] at hr
    cases hs : step w op io with
    | none => simp [runs, hs] at hr
    | some x =>
      obtain ⟨w1, b⟩ := x
      cases hr2 : runs w1 (h1 ++ h2) with
      | none => simp [runs, hs, hr2] at hr
      | some y =>
        obtain ⟨w2, bs2⟩ := y
        simp only [runs, hs, hr2, Option.bind_some, Option.map_some, Option.some.injEq, Prod.mk.injEq] at hr
        obtain ⟨rfl, rfl⟩ := hr
        obtain ⟨w3, c1, c2, g1, g2, rfl, g4⟩ := runs_append h1 h2 hr2
        exact ⟨w3, b :: c1, c2, by simp only [runs, hs, g1, Option.bind_some, Option.map_some], g2, rfl, by simp [g4]⟩

theorem life_bound {h : List (Op × List Bool)} {w : World} {bs : List Bool} (hl : Life h)
    (hr : runs init h = some (w, bs)) : w.fds.length ≤ failures h bs := by
  obtain ⟨a, io, mid, io', rfl, hn, hb⟩ := hl
  rw [← List.cons_append] at hr ⊢
  obtain ⟨w1, bs1, bs2, h1, h2, rfl, hlen⟩ := runs_append _ _ hr
  have hg := alive_good ⟨a, io, mid, rfl, hn, hb⟩ h1
  have hf := t_free _ (E := fun w => w.fds.length ≤ failures ((Op.start a, io) :: mid) bs1) _ (good_io (io := io') hg)
  have : w.fds.length ≤ failures ((Op.start a, io) :: mid) bs1 := by
    have hs' : step w1 .free io' = match free { w1 with io := io' } with
        | .ok _ w => some (put .walPrev none w, false)
        | .err w => some (put .walPrev none w, true)
        | .bad => none := rfl
    simp only [runs, hs'] at h2
    cases hm : free { w1 with io := io' } with
    | ok u v => rw [hm] at hf h2; cases h2; exact hf
    | err v => rw [hm] at hf h2; cases h2; exact hf
    | bad => rw [hm] at h2; cases h2
  refine Nat.le_trans this ?_
  unfold failures
  rw [List.zip_append hlen.symm, List.filter_append, List.length_append]
  omega

theorem good_bound {w : World} (h : Good k w) : w.fds.length ≤ 3 + w.refs.length + w.workers + k := by
  obtain ⟨L, hl, ha⟩ := h.1.acc
  have hsub : w.fds ⊆ L ++ ([Slot.lock, .log, .wal].filterMap w.files ++ ((w.refs.map fun x => Slot.part x.1).filterMap w.files ++
      ((List.range w.workers).map Slot.merged).filterMap w.files)) := by
    intro d hd
    rcases ha d hd with h1 | ⟨s, hs, hf⟩
    · exact List.mem_append_left _ h1
    · refine List.mem_append_right _ ?_
      cases s with
      | lock => exact List.mem_append_left _ (List.mem_filterMap.2 ⟨_, by simp, hf⟩)
      | log => exact List.mem_append_left _ (List.mem_filterMap.2 ⟨_, by simp, hf⟩)
      | wal => exact List.mem_append_left _ (List.mem_filterMap.2 ⟨_, by simp, hf⟩)
      | part id =>
        refine List.mem_append_right _ (List.mem_append_left _ (List.mem_filterMap.2 ⟨.part id, ?_, hf⟩))
        refine Classical.byContradiction fun hc => hs fun p hp => absurd (List.mem_map.2 ⟨_, hp, rfl⟩) hc
      | merged r =>
        refine List.mem_append_right _ (List.mem_append_right _ (List.mem_filterMap.2 ⟨.merged r, ?_, hf⟩))
        exact List.mem_map.2 ⟨r, List.mem_range.2 (Nat.not_le.1 hs), rfl⟩
      | _ => exact absurd trivial hs
  have h1 := (List.subperm_of_subset h.1.sane.1 hsub).length_le
  have h2 := List.length_filterMap_le w.files [Slot.lock, .log, .wal]
  have h3 := List.length_filterMap_le w.files (w.refs.map fun x => Slot.part x.1)
  have h4 := List.length_filterMap_le w.files ((List.range w.workers).map Slot.merged)
  simp only [List.length_append, List.length_map, List.length_range, List.length_cons, List.length_nil] at h1 h2 h3 h4
  omega

end Verif.C93
