import Verif.Proofs.C79

namespace Verif.C79
open Verif.Hold

variable {w : World} {h : List Lock} {g : List Op × Bool}

/-- No short lock, and not the exclusive lock. -/
def Calm (h : List Lock) : Prop := top h = 0 ∧ .exclusive ∉ h

theorem calm_shared (hc : Calm h) : Calm (.shared :: h) :=
  ⟨by simp [top, depth, hc.1], by simp [hc.2]⟩

theorem calm_part {lock : Nat → Lock} (hl : Of lock) {i} (hc : Calm h) : Calm (lock i :: h) := by
  refine ⟨by simp [top, depth_part hl, hc.1], ?_⟩
  rcases hl with rfl | rfl <;> simp [hc.2]

theorem top_mutex (hc : top h = 0) : top (.mutex :: h) = 1 := by simp [top, depth, hc]

/-! ### service.h, memory_mgr.h -/

theorem b_service_schedule (ht : top h < 2) : Bal w h g service_schedule := bal_section ht (by decide)

theorem b_service_add {x} (ht : top h < 2) : Bal w h g (service_add x) :=
  bal_bind (bal_fallible _) fun _ => b_service_schedule ht

theorem b_service_next (ht : top h < 2) : Bal w h g service_next :=
  tri_bind _ (take_short ht) fun _ => tri_bind _ t_cond fun _ => tri_bind _ t_cond fun _ =>
    tri_bind _ give_short fun _ => bal_pure _

theorem b_memory_mgr_push (ht : top h < 2) : Bal w h g memory_mgr_push := bal_section ht (by decide)

theorem b_memtable_free (ht : top h < 2) : Bal w h g memtable_free :=
  bal_bind bal_cond fun _ => bal_ite (b_memory_mgr_push ht) (bal_pure _)

theorem b_part_free (ht : top h < 2) : Bal w h g part_free :=
  bal_bind (b_memtable_free ht) fun _ => b_memtable_free ht

theorem b_memory_mgr_show (ht : top h < 2) : Bal w h g memory_mgr_show :=
  tri_bind _ (take_short ht) fun _ => tri_bind _ give_short fun _ => bal_fallible _

/-! ### wal_id.h, wal.c, wal_cursor.c -/

theorem b_wal_id_add {x} (ht : top h < 2) : Bal w h g (wal_id_add x) :=
  tri_bind _ (take_short ht) fun _ => tri_bind _ (t_attempt (bal_fallible _)) fun r => by
    cases r
    · exact tri_bind _ give_short fun _ => bal_raise
    · exact give_short

/-- Where it cannot fail. -/
theorem t_wal_id_add {x E} (ht : top h < 2) (hx : ∀ n, w.fails x n = false) :
    Tri w (H h g) (wal_id_add x) (fun _ => H h g) E :=
  tri_bind _ (take_short ht) fun _ =>
    tri_bind (fun r s => r.isSome = true ∧ H (.walId :: h) g s)
      (tri_weaken (tri_attempt (bal_sure hx (E := fun _ => False))) (fun _ p => p)
        (fun r s p => by cases r; exact p.elim; exact ⟨rfl, p⟩) (fun _ p => p)) fun r => by
    cases r
    · intro s hp; exact absurd hp.1 (by decide)
    · exact tri_weaken give_short (fun _ p => p.2) (fun _ _ p => p) (fun _ p => p)

theorem b_wal_id_look (ht : top h < 2) : Bal w h g wal_id_look := bal_section ht (by decide)

theorem b_wal_id_gc_between (ht : top h < 2) : Bal w h g wal_id_gc_between :=
  tri_bind _ (take_short ht) fun _ => tri_bind _ t_ask fun i => by
    cases i with
    | zero => exact tri_bind _ give_short fun _ => bal_pure _
    | succ i =>
      exact tri_bind _ (t_attempt (bal_fallible _)) fun r => tri_bind _ give_short fun _ => by
        cases r
        · exact bal_raise
        · exact bal_pure _

theorem b_wal_rotate (hw : ∀ n, w.fails .rotateId n = false) (ht : top h < 1) : Bal w h g wal_rotate :=
  tri_bind _ (take_short ht) fun _ => tri_bind _ t_cond fun ready => by
    cases ready
    · exact give_short
    · refine tri_bind _ (t_attempt (bal_bind (bal_fallible _) fun _ => bal_fallible _)) fun r => ?_
      cases r
      · exact tri_bind _ give_short fun _ => bal_raise
      · exact tri_bind _ (t_wal_id_add (by simp [top, depth]; omega) hw) fun _ =>
          tri_bind _ give_short fun _ => bal_fallible _

theorem b_wal_gc (ht : top h < 2) : Bal w h g wal_gc :=
  bal_bind (b_wal_id_gc_between ht) fun n => bal_times (bal_fallible _) n

theorem b_wal_open (hw : ∀ n, w.fails .rotateId n = false) (ht : top h < 1) : Bal w h g wal_open :=
  bal_bind (bal_fallible _) fun _ => bal_bind (bal_fallible _) fun _ => bal_bind bal_ask fun n =>
    bal_bind (bal_times (b_wal_id_add (by omega)) n) fun _ => bal_bind bal_cond fun _ =>
      bal_ite (bal_bind (b_wal_id_look (by omega)) fun _ => bal_bind (bal_fallible _) fun _ => bal_fallible _)
        (b_wal_rotate hw ht)

theorem b_wal_write (ht : top h < 1) : Bal w h g wal_write :=
  tri_bind _ (take_short ht) fun _ =>
    tri_guarded (Q := fun _ => H (.wal :: h) g) (E := H (.wal :: h) g)
      (bal_bind (bal_fallible _) fun _ => bal_bind (bal_fallible _) fun _ => bal_cond)
      (fun _ => give_short) give_short

theorem b_wal_cursor_next (ht : top h < 2) : ∀ n, Bal w h g (wal_cursor_next n)
  | 0 => bal_spin
  | n + 1 => bal_bind (bal_fallible _) fun _ => bal_bind bal_cond fun _ => bal_ite (bal_pure _)
    (bal_bind (b_wal_id_look ht) fun _ => bal_bind bal_cond fun _ => bal_ite (bal_pure _)
      (bal_bind (bal_fallible _) fun _ => bal_bind (bal_fallible _) fun _ => b_wal_cursor_next ht n))

theorem b_rewind (ht : top h < 2) : ∀ n, Bal w h g (rewind n)
  | 0 => bal_spin
  | n + 1 => bal_bind bal_ask fun k => bal_bind (b_wal_cursor_next ht k) fun _ => bal_ite (bal_pure _)
    (bal_bind bal_cond fun _ => bal_ite (bal_pure _) (b_rewind ht n))

theorem b_wal_cursor_open (ht : top h < 2) : Bal w h g wal_cursor_open :=
  bal_bind (b_wal_id_look ht) fun _ => bal_bind bal_cond fun _ => bal_ite (bal_pure _)
    (bal_bind (bal_fallible _) fun _ => bal_bind (bal_fallible _) fun _ => bal_bind bal_ask fun n => b_rewind ht n)

theorem b_wal_show (ht : top h < 2) : Bal w h g wal_show :=
  bal_bind (b_wal_id_look ht) fun _ => bal_fallible _

/-! ### engine.c -/

theorem b_engine_create (ht : top h < 2) : Bal w h g engine_create :=
  bal_bind (bal_fallible _) fun _ => bal_bind (bal_fallible _) fun _ => bal_bind bal_cond fun _ =>
    bal_ite (b_service_add ht) (bal_pure _)

theorem b_engine_fill_nolock (ht : top h < 2) : Bal w h g engine_fill_nolock :=
  bal_bind (bal_fallible _) fun _ => bal_bind bal_cond fun _ => bal_ite (b_engine_create ht)
    (bal_bind bal_ask fun n => bal_bind (bal_times (bal_fallible _) n) fun _ =>
      bal_bind bal_ask fun n => bal_times (b_engine_create ht) n)

/-- A section under the control lock, guarded. -/
theorem b_shared {α : Type} {x : M α} (hc : Calm h) (hx : Bal w (.shared :: h) g x) :
    Bal w h g (do take .shared; guarded x control_unlock) :=
  tri_bind _ (take_shared hc.1 hc.2) fun _ =>
    tri_guarded hx (fun _ => unlock_shared hc.2) (unlock_shared hc.2)

/-- A section under the mutex, guarded. -/
theorem b_mutex {α : Type} {x : M α} (ht : top h < 1) (hx : Bal w (.mutex :: h) g x) :
    Bal w h g (do take .mutex; guarded x (give .mutex)) :=
  tri_bind _ (take_short ht) fun _ => tri_guarded hx (fun _ => give_short) give_short

theorem b_engine_fill (hc : Calm h) : Bal w h g engine_fill :=
  b_shared hc (b_mutex (by simp [top, depth, hc.1]) (b_engine_fill_nolock (by simp [top, depth, hc.1])))

theorem b_engine_match {gte create} (ht : top h < 2) : Bal w h g (engine_match gte create) :=
  bal_bind bal_cond fun _ => bal_bind bal_ask fun _ => bal_ite (bal_pure _) (bal_ite (bal_pure _)
    (bal_bind (b_engine_fill_nolock ht) fun _ => bal_bind bal_cond fun _ =>
      bal_bind (bal_ite (b_service_add ht) (bal_pure _)) fun _ => bal_bind bal_ask fun _ => bal_pure _))

/-- With `create` there is always a partition. -/
theorem t_engine_match_create (ht : top h < 2) :
    Tri w (H h g) (engine_match false true) (fun r s => r.isSome = true ∧ H h g s) (H h g) :=
  tri_bind _ t_cond fun found => tri_bind _ t_ask fun _ => by
    cases found
    · exact tri_bind _ (b_engine_fill_nolock ht) fun _ => tri_bind _ t_cond fun _ =>
        tri_bind _ (bal_ite (b_service_add ht) (bal_pure _)) fun _ => tri_bind _ t_ask fun _ =>
          tri_pure fun _ p => ⟨rfl, p⟩
    · exact tri_pure fun _ p => ⟨rfl, p⟩

/-- What is held after engine_lock. -/
def after (lock : Nat → Lock) (h : List Lock) : Option Nat → List Lock
  | none => h
  | some i => lock i :: .shared :: h

theorem t_engine_lock_of {lock : Nat → Lock} (hl : Of lock) {gte create} (R : Option Nat → Prop) (hc : Calm h)
    (hm : Tri w (H (.mutex :: .shared :: h) g) (engine_match gte create)
      (fun r s => R r ∧ H (.mutex :: .shared :: h) g s) (H (.mutex :: .shared :: h) g)) :
    Tri w (H h g) (engine_lock lock gte create) (fun r s => R r ∧ H (after lock h r) g s) (H h g) := by
  have ht : top (.mutex :: .shared :: h) = 1 := by simp [top, depth, hc.1]
  have inner : Tri w (H (.mutex :: .shared :: h) g) (do
      let r ← engine_match gte create
      match r with
      | none => pure none
      | some i => do
        take (lock i)
        pure (some i)) (fun r s => R r ∧ match r with
          | none => H (.mutex :: .shared :: h) g s
          | some i => H (lock i :: .mutex :: .shared :: h) g s) (H (.mutex :: .shared :: h) g) := by
    refine tri_bind _ hm fun r => ?_
    cases r with
    | none => exact tri_pure fun _ p => p
    | some i =>
      intro s hp
      have t : Tri w (H (.mutex :: .shared :: h) g) (do take (lock i); pure (some i) : M (Option Nat))
          (fun r s => r = some i ∧ H (lock i :: .mutex :: .shared :: h) g s) (H (.mutex :: .shared :: h) g) :=
        tri_bind _ (take_part hl (by simp) (by omega)) fun _ => tri_pure fun _ p => ⟨rfl, p⟩
      have := t s hp.2
      dsimp only
      revert this
      generalize (do take (lock i); pure (some i) : M (Option Nat)) w s = o
      intro this
      cases o with
      | ok a s' => obtain ⟨e, q⟩ := this; subst e; exact ⟨hp.1, q⟩
      | throw s' => exact this
      | ub _ => exact this
      | stuck _ _ => exact this
      | spin => trivial
  refine tri_bind _ (take_shared hc.1 hc.2) fun _ => ?_
  refine tri_bind (fun r s => match r with
      | none => H (.shared :: h) g s
      | some none => R none ∧ H (.shared :: h) g s
      | some (some i) => R (some i) ∧ H (lock i :: .shared :: h) g s) ?_ fun r => ?_
  · refine tri_weaken (tri_attempt (Q := fun r s => match r with
      | none => R none ∧ H (.shared :: h) g s
      | some i => R (some i) ∧ H (lock i :: .shared :: h) g s) (E := H (.shared :: h) g) ?_) (fun _ p => p)
      (fun r s p => by
        rcases r with _ | r
        · exact p
        · cases r <;> exact p) (fun _ p => p)
    refine tri_bind _ (take_short (by simp [top, depth, hc.1])) fun _ => ?_
    refine tri_bind _ (tri_attempt inner) fun r => ?_
    rcases r with _ | r
    · exact tri_bind _ give_short fun _ => tri_raise fun _ p => p
    · cases r with
      | none =>
        intro s hp
        have t : Tri w (H (.mutex :: .shared :: h) g) (do give .mutex; pure none : M (Option Nat))
            (fun r s => r = none ∧ H (.shared :: h) g s) (H (.shared :: h) g) :=
          tri_bind _ give_short fun _ => tri_pure fun _ p => ⟨rfl, p⟩
        have := t s hp.2
        dsimp only
        revert this
        generalize (do give .mutex; pure none : M (Option Nat)) w s = o
        intro this
        cases o with
        | ok a s' => obtain ⟨e, q⟩ := this; subst e; exact ⟨hp.1, q⟩
        | throw s' => exact this
        | ub _ => exact this
        | stuck _ _ => exact this
        | spin => trivial
      | some i =>
        intro s hp
        have t : Tri w (H (lock i :: .mutex :: .shared :: h) g) (do give .mutex; pure (some i) : M (Option Nat))
            (fun r s => r = some i ∧ H (lock i :: .shared :: h) g s) (H (.shared :: h) g) :=
          tri_bind _ (tri_perm (List.Perm.swap ..) give_short) fun _ => tri_pure fun _ p => ⟨rfl, p⟩
        have := t s hp.2
        dsimp only
        revert this
        generalize (do give .mutex; pure (some i) : M (Option Nat)) w s = o
        intro this
        cases o with
        | ok a s' => obtain ⟨e, q⟩ := this; subst e; exact ⟨hp.1, q⟩
        | throw s' => exact this
        | ub _ => exact this
        | stuck _ _ => exact this
        | spin => trivial
  · rcases r with _ | r
    · exact tri_bind _ (unlock_shared hc.2) fun _ => tri_raise fun _ p => p
    · cases r with
      | none =>
        refine tri_bind (fun _ s => R none ∧ H h g s) ?_ fun _ => tri_pure fun _ p => p
        intro s hp
        have := unlock_shared (w := w) (E := H h g) hc.2 s hp.2
        revert this
        generalize control_unlock w s = o
        intro this
        cases o with
        | ok a s' => exact ⟨hp.1, this⟩
        | throw s' => exact this
        | ub _ => exact this
        | stuck _ _ => exact this
        | spin => trivial
      | some i => exact tri_pure fun _ p => p

theorem t_engine_lock {lock : Nat → Lock} (hl : Of lock) {gte create} (hc : Calm h) :
    Tri w (H h g) (engine_lock lock gte create) (fun r s => H (after lock h r) g s) (H h g) :=
  tri_weaken (t_engine_lock_of hl (fun _ => True) hc
    (tri_weaken (b_engine_match (by simp [top, depth, hc.1])) (fun _ p => p) (fun _ _ p => ⟨trivial, p⟩) (fun _ p => p)))
    (fun _ p => p) (fun _ _ p => p.2) (fun _ p => p)

theorem t_engine_lock_create {lock : Nat → Lock} (hl : Of lock) (hc : Calm h) :
    Tri w (H h g) (engine_lock lock false true) (fun r s => r.isSome = true ∧ H (after lock h r) g s) (H h g) :=
  t_engine_lock_of hl (fun r => r.isSome = true) hc (t_engine_match_create (by simp [top, depth, hc.1]))

theorem t_engine_unlock {lock : Nat → Lock} (hl : Of lock) {i} (hc : Calm h) {E : St → Prop} :
    Tri w (H (lock i :: .shared :: h) g) (engine_unlock (lock i)) (fun _ => H h g) E := by
  refine tri_bind _ (take_short (by rw [show top (lock i :: .shared :: h) = 0 by simp only [top, depth_part hl, hc.1]; rfl]; decide)) fun _ => ?_
  refine tri_guarded (Q := fun _ => H (.mutex :: h) g) (E := fun _ => False) ?_ (fun _ => give_short)
    (fun _ p => p.elim)
  refine tri_bind _ (tri_perm (List.Perm.swap ..) (give_part hl (by simp))) fun _ => ?_
  exact tri_perm (List.Perm.swap ..) (unlock_shared (by simp [hc.2]))

/-- The body of a function that has found a partition. -/
theorem t_found {α : Type} {lock : Nat → Lock} {k : Option Nat → M α} (hl : Of lock) {gte create} (hc : Calm h)
    (hn : Bal w h g (k none))
    (hs : ∀ i, Tri w (H (lock i :: .shared :: h) g) (k (some i)) (fun _ => H h g) (H h g)) :
    Bal w h g (engine_lock lock gte create >>= k) :=
  tri_bind _ (t_engine_lock hl hc) fun r => by
    cases r with
    | none => exact hn
    | some i => exact hs i

/-- The partition is unlocked, then something balanced. -/
theorem t_leave {α : Type} {lock : Nat → Lock} (hl : Of lock) {i} (hc : Calm h) {x : M α} (hx : Bal w h g x) :
    Tri w (H (lock i :: .shared :: h) g) (do engine_unlock (lock i); x) (fun _ => H h g) (H h g) :=
  tri_bind _ (t_engine_unlock hl hc) fun _ => hx

/-- The access lock is taken for a moment. -/
theorem t_moment {α : Type} {h' : List Lock} {i} {x : M α} {Q E} (ht : top h' < 1)
    (hx : Tri w (H h' g) x Q E) :
    Tri w (H h' g) (do take .mutex; take (.access i); give (.access i); give .mutex; x) Q E :=
  tri_bind _ (take_short ht) fun _ =>
    tri_bind _ (take_part of_access (by simp) (by simp [top, depth]; omega)) fun _ =>
      tri_bind _ (give_part of_access (by simp)) fun _ => tri_bind _ give_short fun _ => hx

/-! ### op.c -/

theorem b_engine_foreach (hc : Calm h) : Bal w h g engine_foreach :=
  t_found of_access hc (bal_pure _) fun _ => t_leave of_access hc bal_cond

theorem top_held {i} (hc : Calm h) : top (.service i :: .shared :: h) = 0 := by simp [top, depth, hc.1]

theorem b_engine_drop_file {if_exists loc} (hc : Calm h) : Bal w h g (engine_drop_file if_exists loc) := by
  refine t_found of_service hc (bal_ite bal_raise (bal_pure _)) fun i => ?_
  refine tri_bind _ t_cond fun keep => ?_
  split
  · exact t_leave of_service hc (bal_pure _)
  · have ht := top_held (i := i) hc
    refine tri_bind _ (take_short (by simp [ht, depth])) fun _ => ?_
    refine tri_bind _ (take_part of_access (by simp) (by simp [top_mutex ht])) fun _ => ?_
    refine tri_bind _ (tri_perm (List.Perm.swap ..) give_short) fun _ => ?_
    refine tri_bind _ (t_attempt (bal_bind (bal_fallible _) fun _ => bal_fallible _)) fun r => ?_
    refine tri_bind _ (take_short (by simp [top, depth, hc.1])) fun _ => ?_
    refine tri_bind _ (tri_perm (List.Perm.swap ..) (give_part of_access (by simp))) fun _ => ?_
    refine tri_bind _ give_short fun _ => ?_
    refine t_leave of_service hc ?_
    cases r
    · exact bal_raise
    · exact bal_pure _

theorem b_engine_drop_reference (hc : Calm h) (hs : .shared ∉ h) : Bal w h g engine_drop_reference := by
  have ht := hc.1
  refine tri_bind _ (take_exclusive hc.1 hc.2 hs) fun _ => tri_bind _ t_cond fun _ => ?_
  split
  · exact tri_bind _ unlock_exclusive fun _ => bal_pure _
  · refine tri_bind _ t_cond fun _ => ?_
    split
    · exact tri_bind _ unlock_exclusive fun _ => bal_pure _
    · refine tri_bind _ unlock_exclusive fun _ => ?_
      refine bal_bind (b_part_free (by omega)) fun _ => bal_bind bal_cond fun _ => bal_ite ?_ (bal_pure _)
      exact bal_bind (b_wal_write (by omega)) fun _ => bal_ite
        (bal_bind (b_service_add (by omega)) fun _ => bal_pure _) (bal_pure _)

theorem b_drop_loop {if_exists} (hc : Calm h) (hs : .shared ∉ h) : ∀ n, Bal w h g (drop_loop if_exists n)
  | 0 => bal_spin
  | n + 1 => bal_bind (b_engine_drop_file hc) fun _ => bal_ite (bal_pure _)
    (bal_bind (b_engine_drop_reference hc hs) fun _ => bal_ite (bal_pure _) (b_drop_loop hc hs n))

theorem b_engine_drop {if_exists whole} (hc : Calm h) (hs : whole = true → .shared ∉ h) :
    Bal w h g (engine_drop if_exists whole) := by
  unfold engine_drop
  split
  · rename_i e
    exact bal_bind bal_ask fun n => b_drop_loop hc (hs e) n
  · exact bal_bind (b_engine_drop_file hc) fun _ => bal_pure _

theorem b_range {x} (hc : Calm h) (hx : Bal w h g x) : ∀ n, Bal w h g (range x n)
  | 0 => bal_spin
  | n + 1 => bal_bind (b_engine_foreach hc) fun _ => bal_ite (bal_pure _) (bal_bind hx fun _ => b_range hc hx n)

theorem t_transfer {i} (hc : Calm h) :
    Tri w (H (.service i :: .shared :: h) g) (transfer i) (fun _ => H h g) (H h g) := by
  refine tri_bind _ (t_attempt (bal_fallible _)) fun r => ?_
  cases r
  · exact t_leave of_service hc bal_raise
  · exact t_moment (by simp [top_held hc]) (t_engine_unlock of_service hc)

theorem b_engine_download {a b} (hc : Calm h) : Bal w h g (engine_download a b) := by
  refine t_found of_service hc (bal_ite bal_raise (bal_pure _)) fun i => ?_
  refine tri_bind _ t_cond fun _ => ?_
  split
  · exact t_leave of_service hc (bal_ite bal_raise (bal_pure _))
  · refine tri_bind _ t_cond fun _ => ?_
    split
    · exact t_engine_unlock of_service hc
    · exact t_transfer hc

theorem b_engine_upload {a b} (hc : Calm h) : Bal w h g (engine_upload a b) := by
  refine t_found of_service hc (bal_ite bal_raise (bal_pure _)) fun i => ?_
  refine tri_bind _ t_cond fun _ => ?_
  split
  · exact t_leave of_service hc (bal_ite bal_raise (bal_pure _))
  · refine tri_bind _ t_cond fun _ => ?_
    split
    · exact t_engine_unlock of_service hc
    · refine tri_bind _ t_cond fun _ => ?_
      split
      · exact t_leave of_service hc bal_raise
      · exact t_transfer hc

/-! ### refresh.c -/

theorem t_refresh_begin {a} (hc : Calm h) :
    Tri w (H h g) (refresh_begin a) (fun r => H (after .service h r) g) (H h g) := by
  refine tri_bind _ (t_engine_lock of_service hc) fun r => ?_
  have none' : ∀ {x : M (Option Nat)}, x = pure none → ∀ i,
      Tri w (H (.service i :: .shared :: h) g) (do engine_unlock (.service i); x)
        (fun r => H (after .service h r) g) (H h g) := by
    intro x e i
    subst e
    exact tri_bind _ (t_engine_unlock of_service hc) fun _ => tri_pure fun _ p => p
  have fail : ∀ i, Tri w (H (.service i :: .shared :: h) g) (do engine_unlock (.service i); raise)
      (fun r => H (after .service h r) g) (H h g) := fun i =>
    tri_bind _ (t_engine_unlock of_service hc) fun _ => tri_raise fun _ p => p
  cases r with
  | none =>
    dsimp only
    split
    · exact tri_raise fun _ p => p
    · exact tri_pure fun _ p => p
  | some i =>
    refine tri_bind _ t_cond fun _ => ?_
    split
    · exact fail i
    · refine tri_bind _ t_cond fun _ => ?_
      split
      · exact fail i
      · refine tri_bind _ t_cond fun _ => ?_
        split
        · exact none' rfl i
        · exact t_moment (h' := .service i :: .shared :: h) (by simp [top_held hc]) (tri_pure fun _ p => p)

theorem b_refresh_apply {i} (ht : top h < 1) : Bal w h g (refresh_apply i) :=
  tri_bind _ (take_short ht) fun _ =>
    tri_bind _ (take_part of_access (by simp) (by simp [top, depth]; omega)) fun _ =>
      tri_bind _ (give_part of_access (by simp)) fun _ => give_short

theorem b_refresh_end (ht : top h < 2) : Bal w h g refresh_end :=
  bal_bind (b_memtable_free ht) fun _ => bal_bind (bal_fallible _) fun _ => bal_bind (bal_fallible _) fun _ =>
    bal_bind (bal_fallible _) fun _ => bal_bind (bal_fallible _) fun _ => bal_bind (b_part_free ht) fun _ =>
      bal_bind (bal_fallible _) fun _ => bal_fallible _

theorem b_refresh_run {a} (hc : Calm h) : Bal w h g (refresh_run a) :=
  tri_bind _ (t_refresh_begin hc) fun r => by
    cases r with
    | none => exact bal_pure _
    | some i =>
      have ht := top_held (i := i) hc
      change Tri w (H (.service i :: .shared :: h) g) _ _ _
      refine tri_bind _ (t_attempt (bal_bind (bal_fallible _) fun _ =>
        bal_bind (b_refresh_apply (by simp [ht])) fun _ => b_refresh_end (by simp [ht]))) fun r => ?_
      refine t_leave of_service hc ?_
      cases r
      · exact bal_raise
      · exact bal_pure _

theorem b_engine_refresh {a} (hc : Calm h) : Bal w h g (engine_refresh a) :=
  bal_bind (b_engine_download hc) fun _ => bal_bind (b_engine_drop hc nofun) fun _ =>
    bal_bind (b_refresh_run hc) fun _ => bal_bind (b_engine_upload hc) fun _ =>
      bal_bind (b_engine_drop_file hc) fun _ => bal_pure _

/-! ### op.c again -/

theorem b_tiers (hw : ∀ n, w.fails .tierName n = false) {E} :
    ∀ n, Tri w (H h g) (tiers n) (fun _ => H h g) E
  | 0 => tri_pure fun _ p => p
  | n + 1 => tri_bind _ t_cond fun part => by
    cases part
    · exact b_tiers hw n
    · refine tri_bind _ t_cond fun last => tri_bind (fun _ => H h g) ?_ fun _ => tri_bind _ t_cond fun refresh => ?_
      · cases last
        · exact bal_sure hw
        · exact tri_pure fun _ p => p
      · cases refresh
        · exact tri_pure fun _ p => p
        · exact b_tiers hw n

theorem b_engine_rebalance_next (hw : ∀ n, w.fails .tierName n = false) (hc : Calm h) :
    Bal w h g engine_rebalance_next :=
  b_shared hc (bal_bind bal_cond fun _ => bal_ite (bal_pure _)
    (tri_bind _ (take_short (by simp [top, depth, hc.1])) fun _ => tri_bind _ t_ask fun n =>
      tri_bind _ (b_tiers hw n) fun _ => tri_bind _ give_short fun _ => bal_pure _))

theorem b_engine_rebalance (hw : ∀ n, w.fails .tierName n = false) (hc : Calm h) (hs : .shared ∉ h) :
    ∀ n, Bal w h g (engine_rebalance n)
  | 0 => bal_spin
  | n + 1 => bal_bind (b_engine_rebalance_next hw hc) fun _ => bal_ite (bal_pure _)
    (bal_bind bal_cond fun _ => bal_bind
      (bal_ite (b_engine_drop hc fun _ => hs) (b_engine_refresh hc)) fun _ => b_engine_rebalance hw hc hs n)

theorem b_schedule (ht : top h < 2) : ∀ n, Bal w h g (schedule n)
  | 0 => bal_pure _
  | n + 1 => bal_bind bal_cond fun _ => bal_bind (bal_ite (b_service_add ht) (bal_pure _)) fun _ => b_schedule ht n

theorem b_engine_checkpoint (hc : Calm h) (hs : .shared ∉ h) : Bal w h g engine_checkpoint :=
  tri_bind _ (take_exclusive hc.1 hc.2 hs) fun _ =>
    tri_guarded (Q := fun _ => H (.exclusive :: h) g) (E := H (.exclusive :: h) g)
      (bal_bind bal_ask fun n => b_schedule (by simp [top, depth, hc.1]) n)
      (fun _ => unlock_exclusive) unlock_exclusive

theorem b_engine_gc (hc : Calm h) : Bal w h g engine_gc :=
  bal_bind bal_cond fun _ => bal_ite (bal_pure _) (b_shared hc
    (tri_bind _ (take_short (by simp [top, depth, hc.1])) fun _ => tri_bind _ give_short fun _ =>
      b_wal_gc (by simp [top, depth, hc.1])))

theorem b_action (hw : Spared leaks w) (hc : Calm h) (hs : .shared ∉ h) (k : Nat) : Bal w h g (action k) := by
  have ht := hc.1
  unfold action
  split
  · exact b_wal_rotate (hw _ (by simp [leaks])) (by omega)
  · exact b_engine_gc hc
  · exact bal_bind bal_ask fun n => b_engine_rebalance (hw _ (by simp [leaks])) hc hs n
  · exact bal_bind (b_engine_drop_file hc) fun _ => bal_pure _
  · exact b_engine_drop hc nofun
  · exact b_refresh_run hc
  · exact b_engine_download hc
  · exact b_engine_upload hc
  · exact bal_pure _

theorem b_actions (hw : Spared leaks w) (hc : Calm h) (hs : .shared ∉ h) : ∀ n, Bal w h g (actions n)
  | 0 => bal_pure _
  | n + 1 => bal_bind bal_cond fun _ => bal_ite (b_service_schedule (by have := hc.1; omega))
    (bal_bind bal_ask fun k => bal_bind (b_action hw hc hs k) fun _ => b_actions hw hc hs n)

theorem b_engine_service (hw : Spared leaks w) (hc : Calm h) (hs : .shared ∉ h) : Bal w h g engine_service :=
  bal_bind (b_service_next (by have := hc.1; omega)) fun r => by
    rcases r with _ | r
    · exact bal_pure _
    · cases r
      · exact bal_pure _
      · exact bal_bind bal_ask fun n => bal_bind (bal_attempt (b_actions hw hc hs n)) fun _ => bal_pure _

/-- It never throws. -/
theorem t_engine_service (hw : Spared leaks w) (hc : Calm h) (hs : .shared ∉ h) {E} :
    Tri w (H h g) engine_service (fun _ => H h g) E := by
  refine tri_bind (fun _ => H h g) ?_ fun r => ?_
  · exact tri_bind _ (take_short (by simp [depth, hc.1])) fun _ => tri_bind _ t_cond fun _ => tri_bind _ t_cond fun _ =>
      tri_bind _ give_short fun _ => tri_pure fun _ p => p
  · rcases r with _ | r
    · exact tri_pure fun _ p => p
    · cases r
      · exact tri_pure fun _ p => p
      · exact tri_bind _ t_ask fun n => tri_bind _ (t_attempt (b_actions hw hc hs n)) fun _ => tri_pure fun _ p => p

theorem b_engine_show (hc : Calm h) : Bal w h g engine_show :=
  b_shared hc (b_mutex (by simp [top, depth, hc.1]) (bal_fallible _))

end Verif.C79
