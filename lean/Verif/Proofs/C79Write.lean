import Verif.Proofs.C79Engine

namespace Verif.C79
open Verif.Hold

variable {w : World} {h : List Lock} {g : List Op × Bool}

/-- The locks `h` are held, whatever the log. -/
def F (h : List Lock) (s : St) : Prop := s.held.Perm h ∧ Orderly s.acts

theorem f_of_h {s} (p : H h g s) : F h s := ⟨p.1, p.2.1⟩

theorem h_of_f {s} (p : F h s) : H h (s.log, s.logBuf) s := ⟨p.1, p.2, rfl, rfl⟩

/-- For each log. -/
theorem tri_f {α : Type} {P : St → Prop} {x : M α} {Q E} (hp : ∀ s, P s → F h s)
    (t : ∀ g, Tri w (fun s => P s ∧ H h g s) x Q E) : Tri w P x Q E :=
  fun s p => t (s.log, s.logBuf) s ⟨p, h_of_f (hp s p)⟩

theorem f_bal {α : Type} {x : M α} (b : ∀ g, Bal w h g x) : Tri w (F h) x (fun _ => F h) (F h) :=
  fun s p => by
    have := b (s.log, s.logBuf) s (h_of_f p)
    revert this
    generalize x w s = o
    intro this
    cases o with
    | ok a s' => exact f_of_h this
    | throw s' => exact f_of_h this
    | ub _ => exact this
    | stuck _ _ => exact this
    | spin => trivial

/-! ### The locks of a log -/

/-- What the records of a log hold. -/
def lk : List Op → List Lock
  | [] => []
  | op :: l => (match op.ref with
    | none => []
    | some i => [.access i, .shared]) ++ lk l

theorem lk_append (a b : List Op) : lk (a ++ b) = lk a ++ lk b := by
  induction a with
  | nil => rfl
  | cons x a ih => rw [List.cons_append, lk, ih, lk, List.append_assoc]

theorem lk_reverse (l : List Op) : (lk l.reverse).Perm (lk l) := by
  induction l with
  | nil => exact .refl _
  | cons x l ih =>
    rw [List.reverse_cons, lk_append]
    refine (ih.append_right _).trans (List.perm_append_comm.trans ?_)
    rw [lk, lk, lk, List.append_nil]

theorem lk_none {op : Op} {l} (e : op.ref = none) : lk (op :: l) = lk l := by rw [lk, e]; rfl

theorem lk_some {op : Op} {l i} (e : op.ref = some i) : lk (op :: l) = .access i :: .shared :: lk l := by
  rw [lk, e]; rfl

theorem calm_lk (hc : Calm h) : ∀ l : List Op, Calm (lk l ++ h)
  | [] => hc
  | op :: l => by
    cases e : op.ref with
    | none => rw [lk_none e]; exact calm_lk hc l
    | some i => rw [lk_some e]; exact calm_part of_access (calm_shared (calm_lk hc l))

/-- A record that engine_rollback can take back. -/
def Done (op : Op) : Prop := op.ref = none ∨ op.prev = true ∨ (op.event = true ∧ op.bare = false)

/-- Between two events. -/
def K (h : List Lock) (s : St) : Prop := F (lk s.log ++ h) s ∧ ∀ op ∈ s.log, Done op

/-- When a step has failed. -/
def X (w : World) (h : List Lock) (s : St) : Prop :=
  F (lk s.log ++ h) s ∧ (Spared crashes w → s.logBuf = true ∧ ∀ op ∈ s.log, Done op)

theorem not_spared {x n} (hx : x ∈ crashes) (e : w.fails x n = true) : ¬ Spared crashes w := by
  intro hs
  rw [hs x hx n] at e
  exact absurd e (by decide)

/-! ### Steps -/

theorem t_check_key : Tri w (K h) check_key (fun _ => K h) (X w h) := by
  intro s hp
  unfold check_key
  cases e : w.fails (if s.logBuf then .record else .firstRecord) s.tick
  · exact hp
  · refine ⟨hp.1, fun hs => ?_⟩
    cases eb : s.logBuf
    · rw [eb] at e
      exact absurd hs (not_spared (by simp [crashes]) e)
    · exact ⟨rfl, hp.2⟩

/-- A record that is not used yet. -/
def blank : Op := ⟨none, false, false, false⟩

/-- After log_add. -/
def N (h : List Lock) (l : List Op) (s : St) : Prop := H (lk l ++ h) (blank :: l, true) s ∧ ∀ op ∈ l, Done op

theorem t_log_add : Tri w (K h) log_add (fun _ s => ∃ l, N h l s) (X w h) := by
  intro s hp
  unfold log_add
  cases e : w.fails (if s.logBuf then .record else .firstRecord) s.tick
  · exact ⟨s.log, ⟨hp.1.1, hp.1.2, rfl, rfl⟩, hp.2⟩
  · refine ⟨hp.1, fun hs => ?_⟩
    cases eb : s.logBuf
    · rw [eb] at e
      exact absurd hs (not_spared (by simp [crashes]) e)
    · exact ⟨rfl, hp.2⟩

theorem t_last {op : Op} {l b f E} :
    Tri w (H h (op :: l, b)) (last f) (fun _ => H h (f op :: l, b)) E := by
  intro s hp
  obtain ⟨h1, h2, h3, h4⟩ := hp
  refine ⟨h1, h2, ?_, h4⟩
  dsimp only at h3 ⊢
  rw [h3]

/-- A step in `crashes`. -/
theorem t_crash {x} (hx : x ∈ crashes) :
    Tri w (H h g) (fallible x) (fun _ => H h g) (fun s => H h g s ∧ ¬ Spared crashes w) := by
  intro s hp
  unfold fallible
  cases e : w.fails x s.tick
  · exact hp
  · exact ⟨hp, not_spared hx e⟩

theorem t_wrong_crash {x} (hx : x ∈ crashes) {E} :
    Tri w (H h g) (wrong x) (fun b s => (b = true → ¬ Spared crashes w) ∧ H h g s) E :=
  fun _ hp => ⟨fun e => not_spared hx e, hp⟩

theorem t_memory_mgr_pop (ht : top h < 2) :
    Tri w (H h g) memory_mgr_pop (fun _ => H h g) (fun s => H h g s ∧ ¬ Spared crashes w) := by
  refine tri_bind _ (take_short ht) fun _ => tri_bind _ t_cond fun cached => ?_
  cases cached
  · refine tri_bind _ t_cond fun limit => ?_
    cases limit
    · exact tri_bind _ give_short fun _ => t_crash (by simp [crashes])
    · refine tri_bind _ (t_wrong_crash (by simp [crashes])) fun bad => ?_
      refine tri_bind (fun _ s => (bad = true → ¬ Spared crashes w) ∧ H h g s) ?_ fun _ => ?_
      · intro s hp
        have := give_short (w := w) (h := h) (g := g) (l := .memory) (E := fun _ => False) (by decide) s hp.2
        revert this
        generalize give .memory w s = o
        intro this
        cases o with
        | ok a s' => exact ⟨hp.1, this⟩
        | throw s' => exact this.elim
        | ub _ => exact this
        | stuck _ _ => exact this
        | spin => trivial
      · cases bad
        · exact tri_pure fun _ p => p.2
        · exact tri_raise fun _ p => ⟨p.2, p.1 rfl⟩
  · exact give_short

theorem t_event_allocate (ht : top h < 2) :
    Tri w (H h g) event_allocate (fun _ => H h g) (fun s => H h g s ∧ ¬ Spared crashes w) := by
  refine tri_bind _ (t_wrong_crash (by simp [crashes])) fun large => ?_
  cases large
  · refine tri_bind (fun _ => H h g) (tri_weaken t_cond (fun _ p => p.2) (fun _ _ p => p) (fun _ p => p)) fun full => ?_
    cases full
    · exact tri_pure fun _ p => p
    · exact t_memory_mgr_pop ht
  · exact tri_undefined fun _ p => p.1 rfl

/-- A failure with the record `op` on top. -/
theorem x_of_h {op : Op} {l i s} (hl : ∀ o ∈ l, Done o) (hr : op.ref = some i)
    (p : H (.access i :: .shared :: (lk l ++ h)) (op :: l, true) s) (hd : Spared crashes w → Done op) :
    X w h s := by
  obtain ⟨h1, h2, h3, h4⟩ := p
  dsimp only at h3 h4
  refine ⟨⟨?_, h2⟩, fun hs => ⟨h4, ?_⟩⟩
  · rw [h3, lk_some hr]; exact h1
  · rw [h3]
    intro o ho
    rcases List.mem_cons.1 ho with rfl | ho
    · exact hd hs
    · exact hl o ho

theorem k_of_h {op : Op} {l i s} (hl : ∀ o ∈ l, Done o) (hr : op.ref = some i)
    (p : H (.access i :: .shared :: (lk l ++ h)) (op :: l, true) s) (hd : Done op) :
    K h s ∧ s.logBuf = true := by
  obtain ⟨h1, h2, h3, h4⟩ := p
  dsimp only at h3 h4
  refine ⟨⟨⟨?_, h2⟩, ?_⟩, h4⟩
  · rw [h3, lk_some hr]; exact h1
  · rw [h3]
    intro o ho
    rcases List.mem_cons.1 ho with rfl | ho
    · exact hd
    · exact hl o ho

theorem t_memtable_set {l i} (hl : ∀ o ∈ l, Done o) :
    Tri w (H (.access i :: .shared :: (lk l ++ h)) (⟨some i, true, false, false⟩ :: l, true)) memtable_set
      (fun _ s => K h s ∧ s.logBuf = true) (X w h) := by
  refine tri_bind _ t_cond fun first => ?_
  cases first
  · refine tri_bind _ t_cond fun full => ?_
    cases full
    · refine tri_bind _ t_cond fun prev => ?_
      exact tri_weaken (t_last (E := fun _ => False)) (fun _ p => p)
        (fun _ _ p => k_of_h hl rfl p (.inr (.inr ⟨rfl, rfl⟩))) (fun _ p => p.elim)
    · exact tri_weaken (bal_fallible .morePage) (fun _ p => p)
        (fun _ _ p => k_of_h hl rfl p (.inr (.inr ⟨rfl, rfl⟩)))
        (fun _ p => x_of_h hl rfl p fun _ => .inr (.inr ⟨rfl, rfl⟩))
  · refine tri_bind _ t_last fun _ => ?_
    refine tri_bind _ (tri_weaken (t_crash (x := .firstPage) (by simp [crashes])) (fun _ p => p) (fun _ _ p => p)
      (fun _ p => x_of_h hl rfl p.1 fun hs => absurd hs p.2)) fun _ => ?_
    exact tri_weaken (t_last (E := fun _ => False)) (fun _ p => p)
      (fun _ _ p => k_of_h hl rfl p (.inr (.inr ⟨rfl, rfl⟩))) (fun _ p => p.elim)

theorem t_store {l i} (hc : Calm h) (hl : ∀ o ∈ l, Done o) :
    Tri w (H (.access i :: .shared :: (lk l ++ h)) (blank :: l, true)) (store i)
      (fun _ s => K h s ∧ s.logBuf = true) (X w h) := by
  have ht : top (.access i :: .shared :: (lk l ++ h)) < 2 := by
    rw [(calm_part of_access (calm_shared (calm_lk hc l))).1]; decide
  refine tri_bind _ t_last fun _ => ?_
  refine tri_bind _ (tri_weaken (t_event_allocate ht) (fun _ p => p) (fun _ _ p => p)
    (fun _ p => x_of_h hl rfl p.1 fun hs => absurd hs p.2)) fun _ => ?_
  refine tri_bind _ (tri_weaken (t_crash (x := .iov) (by simp [crashes])) (fun _ p => p) (fun _ _ p => p)
    (fun _ p => x_of_h hl rfl p.1 fun hs => absurd hs p.2)) fun _ => ?_
  refine tri_bind _ t_last fun _ => ?_
  exact t_memtable_set hl

theorem x_of_blank {l s} (hl : ∀ o ∈ l, Done o) (p : H (lk l ++ h) (blank :: l, true) s) : X w h s := by
  obtain ⟨h1, h2, h3, h4⟩ := p
  dsimp only at h3 h4
  refine ⟨⟨?_, h2⟩, fun _ => ⟨h4, ?_⟩⟩
  · rw [h3, lk_none rfl]; exact h1
  · rw [h3]
    intro o ho
    rcases List.mem_cons.1 ho with rfl | ho
    · exact .inl rfl
    · exact hl o ho

theorem tri_exists {α ι : Type} {P : ι → St → Prop} {x : M α} {Q E} (t : ∀ i, Tri w (P i) x Q E) :
    Tri w (fun s => ∃ i, P i s) x Q E := fun s ⟨i, p⟩ => t i s p

theorem tri_and {α : Type} {c : Prop} {P : St → Prop} {x : M α} {Q E} (t : c → Tri w P x Q E) :
    Tri w (fun s => P s ∧ c) x Q E := fun s p => t p.2 s p.1

theorem tri_and' {α : Type} {c : Prop} {P : St → Prop} {x : M α} {Q E} (t : c → Tri w P x Q E) :
    Tri w (fun s => c ∧ P s) x Q E := fun s p => t p.1 s p.2

theorem t_write_one (hc : Calm h) :
    Tri w (K h) write_one (fun _ s => K h s ∧ s.logBuf = true) (X w h) := by
  refine tri_bind _ t_check_key fun _ => tri_bind _ t_log_add fun _ => tri_exists fun l => tri_and fun hl => ?_
  refine tri_bind _ (tri_weaken (t_engine_lock_create of_access (calm_lk hc l)) (fun _ p => p) (fun _ _ p => p)
    (fun _ p => x_of_blank hl p)) fun r => tri_and' fun hr => ?_
  cases r with
  | none => exact absurd hr (by decide)
  | some i => exact t_store hc hl

theorem t_replay_one (hc : Calm h) :
    Tri w (K h) replay_one (fun _ s => K h s ∧ s.logBuf = true) (X w h) := by
  refine tri_bind _ t_log_add fun _ => tri_exists fun l => tri_and fun hl => ?_
  refine tri_bind _ (tri_weaken (t_engine_lock_create of_access (calm_lk hc l)) (fun _ p => p) (fun _ _ p => p)
    (fun _ p => x_of_blank hl p)) fun r => tri_and' fun hr => ?_
  cases r with
  | none => exact absurd hr (by decide)
  | some i =>
    refine tri_bind _ t_cond fun newer => ?_
    cases newer
    · exact t_store hc hl
    · refine tri_bind _ (t_engine_unlock of_access (calm_lk hc l)) fun _ => ?_
      intro s hp
      obtain ⟨h1, h2, h3, h4⟩ := hp
      dsimp only at h3 h4
      refine ⟨⟨⟨?_, h2⟩, ?_⟩, h4⟩
      · change s.held.Perm (lk s.log.tail ++ h)
        rw [h3]; exact h1
      · change ∀ op ∈ s.log.tail, Done op
        rw [h3]; exact hl

theorem t_times {x} (hx : Tri w (K h) x (fun _ s => K h s ∧ s.logBuf = true) (X w h)) :
    ∀ n, Tri w (K h) (times n x) (fun _ s => K h s ∧ (n ≠ 0 → s.logBuf = true)) (X w h)
  | 0 => tri_pure fun _ p => ⟨p, fun h => absurd rfl h⟩
  | n + 1 => by
    refine tri_bind _ hx fun _ => ?_
    cases n with
    | zero => exact tri_pure fun _ p => ⟨p.1, fun _ => p.2⟩
    | succ n =>
      exact tri_weaken (t_times hx (n + 1)) (fun _ p => p.1) (fun _ _ p => ⟨p.1, fun _ => p.2 (by omega)⟩) (fun _ p => p)

theorem b_write_wal (ht : top h < 1) : Bal w h g write_wal :=
  bal_bind bal_cond fun _ => bal_ite
    (bal_bind (bal_fallible _) fun _ => bal_bind (b_wal_write ht) fun _ => bal_ite (b_service_add (by omega)) (bal_pure _))
    (bal_pure _)

theorem t_write_wal (hc : Calm h) :
    Tri w (fun s => K h s ∧ s.logBuf = true) write_wal (fun _ => K h) (X w h) := by
  intro s hp
  have ht : top (lk s.log ++ h) < 1 := by rw [(calm_lk hc s.log).1]; decide
  have := b_write_wal (w := w) ht s (h_of_f hp.1.1)
  revert this
  generalize write_wal w s = o
  intro this
  cases o with
  | ok a s' =>
    obtain ⟨h1, h2, h3, h4⟩ := this
    dsimp only at h3 h4
    exact ⟨⟨h3 ▸ h1, h2⟩, h3 ▸ hp.1.2⟩
  | throw s' =>
    obtain ⟨h1, h2, h3, h4⟩ := this
    dsimp only at h3 h4
    exact ⟨⟨h3 ▸ h1, h2⟩, fun _ => ⟨h4.trans hp.2, h3 ▸ hp.1.2⟩⟩
  | ub _ => exact this
  | stuck _ _ => exact this
  | spin => trivial

/-! ### Rollback and commit -/

theorem t_f_unlock {i E} (hc : Calm h) :
    Tri w (F (.access i :: .shared :: h)) (engine_unlock (.access i)) (fun _ => F h) E := fun s p => by
  have := t_engine_unlock (w := w) (E := E) of_access hc s (h_of_f p)
  revert this
  generalize engine_unlock (.access i) w s = o
  intro this
  cases o with
  | ok a s' => exact f_of_h this
  | throw s' => exact this
  | ub _ => exact this
  | stuck _ _ => exact this
  | spin => trivial

theorem t_undo (hc : Calm h) {E} : ∀ l : List Op, (Spared crashes w → ∀ op ∈ l, Done op) →
    Tri w (F (lk l ++ h)) (undo l) (fun _ => F h) E
  | [], _ => fun _ p => p
  | op :: l, hd => by
    have ih := t_undo hc (E := E) l fun hs o ho => hd hs o (List.mem_cons_of_mem _ ho)
    unfold undo
    cases e : op.ref with
    | none => rw [lk_none e]; exact ih
    | some i =>
      rw [lk_some e]
      dsimp only
      split
      · rename_i hb
        refine tri_undefined fun s _ hs => ?_
        rcases hd hs op (List.mem_cons_self ..) with hn | hp | ⟨he, hr⟩
        · rw [e] at hn; exact absurd hn (by simp)
        · rw [hp] at hb; simp at hb
        · rw [he, hr] at hb; simp at hb
      · exact tri_bind _ (t_f_unlock (calm_lk hc l)) fun _ => ih

theorem tri_get {α : Type} {P : St → Prop} {k : St → M α} {Q E}
    (t : ∀ a, Tri w (fun s => P s ∧ s = a) (k a) Q E) : Tri w P (get >>= k) Q E :=
  fun s p => t s s ⟨p, rfl⟩

theorem t_engine_rollback (hc : Calm h) {E} : Tri w (X w h) engine_rollback (fun _ => F h) E := by
  refine tri_get fun a => ?_
  cases eb : a.logBuf
  · exact tri_undefined fun s p hs => by
      obtain ⟨p, rfl⟩ := p
      rw [(p.2 hs).1] at eb
      exact absurd eb (by decide)
  · intro s p
    obtain ⟨p, rfl⟩ := p
    exact t_undo hc s.log (fun hs => (p.2 hs).2) s p.1

theorem t_service_sure {x E} (hw : ∀ n, w.fails x n = false) (ht : top h < 2) :
    Tri w (H h g) (service_add x) (fun _ => H h g) E :=
  tri_bind _ (bal_sure hw) fun _ => tri_bind _ (take_short ht) fun _ => give_short

theorem t_commit (hw : ∀ n, w.fails .commitRequest n = false) (hc : Calm h) {E} : ∀ l : List Op,
    Tri w (F (lk l ++ h)) (commit l) (fun _ => F h) E
  | [] => fun _ p => p
  | op :: l => by
    have ih := t_commit hw hc (E := E) l
    unfold commit
    cases e : op.ref with
    | none => rw [lk_none e]; exact ih
    | some i =>
      rw [lk_some e]
      refine tri_f (fun _ p => p) fun g => tri_weaken (P := H (.access i :: .shared :: (lk l ++ h)) g) ?_ (fun _ p => p.2)
        (fun _ _ p => p) (fun _ p => p)
      have ht : top (.access i :: .shared :: (lk l ++ h)) < 2 := by
        rw [(calm_part of_access (calm_shared (calm_lk hc l))).1]; decide
      refine tri_bind _ t_cond fun ready => ?_
      refine tri_bind (fun _ => H (.access i :: .shared :: (lk l ++ h)) g) ?_ fun _ => ?_
      · cases ready
        · exact tri_pure fun _ p => p
        · exact t_service_sure hw ht
      · exact tri_bind _ (tri_weaken (t_f_unlock (calm_lk hc l)) (fun _ p => f_of_h p) (fun _ _ p => p) (fun _ p => p))
          fun _ => ih

theorem t_engine_commit (hw : ∀ n, w.fails .commitRequest n = false) (hc : Calm h) {E} :
    Tri w (K h) engine_commit (fun _ => F h) E := by
  intro s hp
  exact t_commit hw hc s.log.reverse s ⟨hp.1.1.trans ((lk_reverse s.log).symm.append_right h), hp.1.2⟩

theorem t_log_init {E} : Tri w (F h) log_init (fun _ => K h) E :=
  fun _ p => ⟨p, nofun⟩

/-- The end of engine_write and engine_write_replay. -/
theorem t_end (hw : ∀ n, w.fails .commitRequest n = false) (hc : Calm h) {x : M Unit}
    (hx : Tri w (K h) x (fun _ => K h) (X w h)) :
    Tri w (F h) (do
      log_init
      let r ← attempt x
      match r with
      | none => do
        engine_rollback
        raise
      | some _ => engine_commit) (fun _ => F h) (F h) := by
  refine tri_bind _ t_log_init fun _ => tri_bind _ (tri_attempt hx) fun r => ?_
  cases r
  · exact tri_bind _ (t_engine_rollback hc) fun _ => tri_raise fun _ p => p
  · exact t_engine_commit hw hc

theorem f_engine_write (hw : ∀ n, w.fails .commitRequest n = false) (hc : Calm h) {n : Nat} (hn : n ≠ 0) :
    Tri w (F h) (engine_write n) (fun _ => F h) (F h) :=
  t_end hw hc (tri_bind _ (tri_weaken (t_times (t_write_one hc) n) (fun _ p => p) (fun _ _ p => ⟨p.1, p.2 hn⟩)
    (fun _ p => p)) fun _ => t_write_wal hc)

theorem f_engine_write_replay (hw : ∀ n, w.fails .commitRequest n = false) (hc : Calm h) (n : Nat) :
    Tri w (F h) (engine_write_replay n) (fun _ => F h) (F h) :=
  t_end hw hc (tri_weaken (t_times (t_replay_one hc) n) (fun _ p => p) (fun _ _ p => p.1) (fun _ p => p))

/-! ### main.c, execute.c, monotone.c -/

theorem f_replay (hw : Spared leaks w) (hc : Calm h) (hs : .shared ∉ h) :
    ∀ n, Tri w (F h) (replay n) (fun _ => F h) (F h)
  | 0 => tri_spin
  | n + 1 => by
    have ht := hc.1
    refine tri_bind _ (f_bal fun _ => bal_ask) fun k => tri_bind _ (f_bal fun _ => b_wal_cursor_next (by omega) k) fun r => ?_
    split
    · exact tri_pure fun _ p => p
    · refine tri_bind _ (f_bal fun _ => bal_ask) fun type => tri_bind (fun _ => F h) ?_ fun _ => f_replay hw hc hs n
      split
      · exact tri_bind _ (f_bal fun _ => bal_ask) fun count =>
          f_engine_write_replay (hw _ (by simp [leaks])) hc count
      · exact f_bal fun _ => b_engine_drop hc fun _ => hs
      · exact tri_raise fun _ p => p

theorem f_main_start (hw : Spared leaks w) (hc : Calm h) (hs : .shared ∉ h) :
    Tri w (F h) main_start (fun _ => F h) (F h) := by
  have ht := hc.1
  refine tri_bind _ (f_bal fun _ => bal_fallible _) fun _ => tri_bind _ (f_bal fun _ => bal_fallible _) fun _ => ?_
  refine tri_bind _ (f_bal fun _ => bal_cond) fun wal => tri_bind (fun _ => F h) ?_ fun _ => ?_
  · cases wal
    · exact tri_pure fun _ p => p
    · exact tri_bind _ (f_bal fun _ => b_wal_open (hw _ (by simp [leaks])) (by omega)) fun _ =>
        tri_bind _ (f_bal fun _ => b_wal_cursor_open (by omega)) fun _ =>
          tri_bind _ (f_bal fun _ => bal_ask) fun n => f_replay hw hc hs n
  · exact tri_bind _ (f_bal fun _ => b_engine_checkpoint hc hs) fun _ => f_bal fun _ => bal_fallible _

theorem b_execute_show_op (hc : Calm h) : Bal w h g execute_show_op :=
  bal_bind bal_ask fun type => by
    have ht := hc.1
    split
    · exact b_memory_mgr_show (by omega)
    · exact b_wal_show (by omega)
    · exact b_engine_show hc
    · exact bal_fallible _

theorem b_withRefresh {x} (hx : Bal w h g x) : Bal w h g (withRefresh x) :=
  bal_bind (bal_attempt hx) fun r => by
    cases r
    · exact bal_raise
    · exact bal_pure _

theorem b_debugRead (ht : top h < 2) : ∀ n, Bal w h g (debugRead n)
  | 0 => bal_spin
  | n + 1 => bal_bind bal_ask fun k => bal_bind (b_wal_cursor_next ht k) fun _ => bal_ite (bal_pure _)
    (bal_bind (bal_fallible _) fun _ => b_debugRead ht n)

theorem b_function (hw : Spared leaks w) (c : Cmd) (hc : Calm h) (hs : alters (.execute c) = true → .shared ∉ h) :
    Bal w h g (function c) := by
  have ht := hc.1
  cases c with
  | «show» n => exact bal_bind (bal_times (b_execute_show_op hc) n) fun _ => bal_fallible _
  | set => exact bal_fallible _
  | debugWalCreate => exact b_wal_rotate (hw _ (by simp [leaks])) (by omega)
  | debugWalGc => exact b_engine_gc hc
  | debugWalRead => exact bal_bind (b_wal_cursor_open (by omega)) fun _ => bal_bind bal_ask fun n => b_debugRead (by omega) n
  | debugMemoryGc => exact b_memory_mgr_push (by omega)
  | checkpoint => exact b_engine_checkpoint hc (hs rfl)
  | service => exact b_withRefresh (bal_bind (b_engine_service hw hc (hs rfl)) fun _ => bal_pure _)
  | rebalance => exact b_withRefresh (bal_bind bal_ask fun n => b_engine_rebalance (hw _ (by simp [leaks])) hc (hs rfl) n)
  | change => exact bal_fallible _
  | partitionCreate => exact b_engine_fill hc
  | partitionDrop a b => exact b_engine_drop hc hs
  | partitionDropRange b => exact bal_bind bal_ask fun n => b_range hc (b_engine_drop hc hs) n
  | partitionMove a => exact b_withRefresh (b_engine_refresh hc)
  | partitionMoveRange => exact b_withRefresh (bal_bind bal_ask fun n => b_range hc (b_engine_refresh hc) n)
  | partitionRefresh a => exact b_withRefresh (b_engine_refresh hc)
  | partitionRefreshRange => exact b_withRefresh (bal_bind bal_ask fun n => b_range hc (b_engine_refresh hc) n)
  | partitionDownload a b => exact b_engine_download hc
  | partitionDownloadRange b => exact bal_bind bal_ask fun n => b_range hc (b_engine_download hc) n
  | partitionUpload a b => exact b_engine_upload hc
  | partitionUploadRange b => exact bal_bind bal_ask fun n => b_range hc (b_engine_upload hc) n

theorem b_main_execute (hw : Spared leaks w) (c : Cmd) (hc : Calm h)
    (hs : alters (.execute c) = true → .shared ∉ h) : Bal w h g (main_execute c) := by
  refine bal_bind (bal_fallible _) fun _ => ?_
  have finish : ∀ r : Option Unit, Bal w h g (match r with | none => raise | some _ => fallible .other) := by
    intro r
    cases r
    · exact bal_raise
    · exact bal_fallible _
  cases e : lockOf c with
  | none =>
    refine bal_bind (bal_pure _) fun _ => bal_bind (bal_attempt (b_function hw c hc hs)) fun r => ?_
    refine bal_bind ?_ fun _ => finish r
    rw [if_neg (by simp)]
    exact bal_pure _
  | shared =>
    refine tri_bind _ (take_shared hc.1 hc.2) fun _ => ?_
    refine tri_bind _ (t_attempt (b_function hw c (calm_shared hc) fun ha => ?_)) fun r => ?_
    · cases c <;> first | (simp [lockOf] at e; done) | (simp [alters] at ha; done)
    · refine tri_bind (fun _ => H h g) ?_ fun _ => finish r
      rw [if_pos (by simp)]
      exact unlock_shared hc.2
  | exclusive =>
    have ha : alters (.execute c) = true := by
      cases c <;> first | rfl | exact absurd e (by simp [lockOf]; done)
    refine tri_bind _ (take_exclusive hc.1 hc.2 (hs ha)) fun _ => ?_
    have hf : Bal w (.exclusive :: h) g (function c) := by
      cases c <;> first | exact bal_fallible _ | exact absurd e (by simp [lockOf]; done)
    refine tri_bind _ (t_attempt hf) fun r => ?_
    refine tri_bind (fun _ => H h g) ?_ fun _ => finish r
    rw [if_pos (by simp)]
    exact unlock_exclusive

theorem calm_of_fit {c : Call} {held : List Lock} (hf : Fit c held) :
    Calm held ∧ (alters c = true → .shared ∉ held) := by
  refine ⟨⟨?_, ?_⟩, fun ha => by rw [hf.2 ha]; simp⟩
  · have h1 := hf.1
    clear hf
    induction held with
    | nil => rfl
    | cons l held ih =>
      have := ih fun m hm => h1 m (List.mem_cons_of_mem _ hm)
      rcases h1 l (List.mem_cons_self ..) with rfl | ⟨i, rfl⟩ <;> simp [top, depth, this]
  · intro hm
    rcases hf.1 _ hm with e | ⟨i, e⟩ <;> exact absurd e (by simp)

/-- A call catches everything. -/
theorem f_caught {x : M Unit} (hx : Tri w (F h) x (fun _ => F h) (F h)) {E} :
    Tri w (F h) (do
      let r ← attempt x
      pure r.isSome) (fun _ => F h) E :=
  tri_bind (fun _ => F h) (tri_weaken (tri_attempt hx) (fun _ p => p) (fun r s p => by cases r <;> exact p) (fun _ p => p))
    fun _ => tri_pure fun _ p => p

theorem f_call (hw : Spared leaks w) {c : Call} (h0 : c ≠ .write 0) (hf : Fit c h) :
    Tri w (F h) (call c) (fun _ => F h) (fun _ => False) := by
  obtain ⟨hc, hs⟩ := calm_of_fit hf
  cases c with
  | «open» => exact f_caught (f_main_start hw hc (hs rfl))
  | execute c => exact f_caught (f_bal fun _ => b_main_execute hw c hc hs)
  | write n => exact f_caught (f_engine_write (hw _ (by simp [leaks])) hc fun e => h0 (e ▸ rfl))
  | work =>
    have t : Tri w (F h) engine_service (fun _ => F h) (fun _ => False) :=
      tri_f (fun _ p => p) fun g => tri_weaken (t_engine_service hw hc (hs rfl)) (fun _ p => p.2) (fun _ _ p => f_of_h p)
        (fun _ p => p)
    exact t

end Verif.C79
