import Verif.Spec.C79

namespace Verif.C79
open Verif.Hold

/-! ### Triples -/

/-- From a state with `P`, a result comes with `Q`, an error with `E`; undefined
behaviour only where one of the steps in `crashes` has failed. -/
def Tri (w : World) {α : Type} (P : St → Prop) (x : M α) (Q : α → St → Prop) (E : St → Prop) : Prop :=
  ∀ s, P s → match x w s with
    | .ok a s' => Q a s'
    | .throw s' => E s'
    | .ub _ => ¬ Spared crashes w
    | .stuck _ _ => False
    | .spin => True

variable {w : World}

theorem tri_bind {α β : Type} {P E} {R : β → St → Prop} {x : M α} {k : α → M β} (Q : α → St → Prop)
    (hx : Tri w P x Q E) (hk : ∀ a, Tri w (Q a) (k a) R E) : Tri w P (x >>= k) R E := by
  intro s hp
  have h := hx s hp
  change match M.bind x k w s with
    | .ok a s' => R a s' | .throw s' => E s' | .ub _ => ¬ Spared crashes w | .stuck _ _ => False | .spin => True
  unfold M.bind
  cases e : x w s with
  | ok a s' => rw [e] at h; exact hk a s' h
  | throw s' => rw [e] at h; exact h
  | ub _ => rw [e] at h; exact h
  | stuck _ _ => rw [e] at h; exact h
  | spin => trivial

theorem tri_weaken {α : Type} {P P' : St → Prop} {Q Q' : α → St → Prop} {E E' : St → Prop} {x : M α}
    (h : Tri w P x Q E) (hp : ∀ s, P' s → P s) (hq : ∀ a s, Q a s → Q' a s) (he : ∀ s, E s → E' s) :
    Tri w P' x Q' E' := by
  intro s p
  have := h s (hp s p)
  cases e : x w s with
  | ok a s' => rw [e] at this; exact hq _ _ this
  | throw s' => rw [e] at this; exact he _ this
  | ub _ => rw [e] at this; exact this
  | stuck _ _ => rw [e] at this; exact this
  | spin => trivial

theorem tri_pure {α : Type} {P E} {Q : α → St → Prop} {a : α} (h : ∀ s, P s → Q a s) :
    Tri w P (pure a : M α) Q E := fun s hp => h s hp

theorem tri_raise {α : Type} {P E} {Q : α → St → Prop} (h : ∀ s, P s → E s) :
    Tri w P (raise : M α) Q E := fun s hp => h s hp

theorem tri_spin {α : Type} {P E} {Q : α → St → Prop} : Tri w P (spin : M α) Q E := fun _ _ => trivial

theorem tri_undefined {α : Type} {P E} {Q : α → St → Prop} (h : ∀ s, P s → ¬ Spared crashes w) :
    Tri w P (undefined : M α) Q E := fun s hp => h s hp

theorem tri_attempt {α : Type} {P E} {Q : α → St → Prop} {x : M α} {E' : St → Prop} (h : Tri w P x Q E) :
    Tri w P (attempt x) (fun r s => match r with | some a => Q a s | none => E s) E' := by
  intro s hp
  have := h s hp
  unfold attempt
  cases e : x w s with
  | ok a s' => rw [e] at this; exact this
  | throw s' => rw [e] at this; exact this
  | ub _ => rw [e] at this; exact this
  | stuck _ _ => rw [e] at this; exact this
  | spin => trivial

theorem tri_guarded {α : Type} {P E} {Q : α → St → Prop} {x : M α} {fin : M Unit} {Q' : α → St → Prop}
    {E' : St → Prop} (h : Tri w P x Q E)
    (hok : ∀ a, Tri w (Q a) fin (fun _ => Q' a) E') (he : Tri w E fin (fun _ => E') E') :
    Tri w P (guarded x fin) Q' E' := by
  intro s hp
  have := h s hp
  unfold guarded
  cases e : x w s with
  | ok a s' =>
    rw [e] at this
    have h2 := hok a s' this
    dsimp only
    unfold M.bind
    cases e2 : fin w s' with
    | ok _ s2 => rw [e2] at h2; exact h2
    | throw s2 => rw [e2] at h2; exact h2
    | ub _ => rw [e2] at h2; exact h2
    | stuck _ _ => rw [e2] at h2; exact h2
    | spin => trivial
  | throw s' =>
    rw [e] at this
    have h2 := he s' this
    dsimp only
    unfold M.bind
    cases e2 : fin w s' with
    | ok _ s2 => rw [e2] at h2; exact h2
    | throw s2 => rw [e2] at h2; exact h2
    | ub _ => rw [e2] at h2; exact h2
    | stuck _ _ => rw [e2] at h2; exact h2
    | spin => trivial
  | ub _ => rw [e] at this; exact this
  | stuck _ _ => rw [e] at this; exact this
  | spin => trivial

/-! ### What is held -/

/-- The locks `h` are held, in some order; everything was orderly; the log is `g`. -/
def H (h : List Lock) (g : List Op × Bool) (s : St) : Prop :=
  s.held.Perm h ∧ Orderly s.acts ∧ s.log = g.1 ∧ s.logBuf = g.2

theorem h_tick {h g s n} (p : H h g s) : H h g { s with tick := n } := p

theorem h_perm {h h' g s} (p : H h g s) (e : h.Perm h') : H h' g s := ⟨p.1.trans e, p.2⟩

/-- The depth of what is held. -/
def top : List Lock → Nat
  | [] => 0
  | l :: h => max (depth l) (top h)

theorem depth_le_top {h : List Lock} {m : Lock} (hm : m ∈ h) : depth m ≤ top h := by
  induction h with
  | nil => cases hm
  | cons l h ih =>
    rcases List.mem_cons.1 hm with rfl | hm
    · exact Nat.le_max_left ..
    · exact Nat.le_trans (ih hm) (Nat.le_max_right ..)

theorem tri_take {h g l E} (ha : ∀ h', h'.Perm h → Allowed (.take l) h')
    (hb : (l = .shared → .exclusive ∉ h) ∧ (l = .exclusive → .exclusive ∉ h ∧ .shared ∉ h) ∧
      (depth l ≠ 0 → l ∉ h)) : Tri w (H h g) (take l) (fun _ => H (l :: h) g) E := by
  intro s hp
  have hm : ∀ m, s.held.contains m = true ↔ m ∈ h := fun m => by
    rw [List.contains_iff_mem]; exact hp.1.mem_iff
  have good : H (l :: h) g { s with held := l :: s.held, acts := (.take l, s.held) :: s.acts } := by
    refine ⟨hp.1.cons l, ?_, hp.2.2⟩
    intro x hx
    rcases List.mem_cons.1 hx with rfl | hx
    · exact ha _ hp.1
    · exact hp.2.1 x hx
  unfold take
  have hf : ∀ m, m ∉ h → s.held.contains m = false := fun m hm' => by
    cases e : s.held.contains m
    · rfl
    · exact absurd ((hm m).1 e) hm'
  obtain ⟨h1, h2, h3⟩ := hb
  cases l <;> dsimp only
  case shared => rw [hf _ (h1 rfl)]; exact good
  case exclusive => rw [hf _ (h2 rfl).1, hf _ (h2 rfl).2]; exact good
  case access i => exact good
  case service i => exact good
  all_goals
    rw [hf _ (h3 (by decide))]; exact good

theorem tri_give {h g l E} (hm : ∀ h', h'.Perm (l :: h) → Allowed (.give l) h') :
    Tri w (H (l :: h) g) (give l) (fun _ => H h g) E := by
  intro s hp
  have hc : s.held.contains l = true := by
    rw [List.contains_iff_mem]; exact hp.1.mem_iff.2 (List.mem_cons_self ..)
  unfold give
  rw [if_pos hc]
  refine ⟨?_, ?_, hp.2.2⟩
  · have := hp.1.erase l
    rwa [List.erase_cons_head] at this
  · intro x hx
    rcases List.mem_cons.1 hx with rfl | hx
    · exact hm _ hp.1
    · exact hp.2.1 x hx

/-! ### Balanced computations -/

/-- Ends with what it began with. -/
def Bal (w : World) (h : List Lock) (g : List Op × Bool) {α : Type} (x : M α) : Prop :=
  Tri w (H h g) x (fun _ => H h g) (H h g)

variable {h : List Lock} {g : List Op × Bool}

theorem bal_bind {α β : Type} {x : M α} {k : α → M β} (hx : Bal w h g x) (hk : ∀ a, Bal w h g (k a)) :
    Bal w h g (x >>= k) := tri_bind _ hx hk

theorem bal_pure {α : Type} (a : α) : Bal w h g (pure a : M α) := tri_pure fun _ p => p

theorem bal_raise {α : Type} : Bal w h g (raise : M α) := tri_raise fun _ p => p

theorem bal_spin {α : Type} : Bal w h g (spin : M α) := tri_spin

theorem bal_fallible (x : Site) : Bal w h g (fallible x) := by
  intro s hp
  unfold fallible
  split
  · rename_i e; split at e
    · exact absurd e (by simp)
    · injection e with _ e; subst e; exact hp
  · rename_i e; split at e
    · injection e with e; subst e; exact hp
    · exact absurd e (by simp)
  all_goals (rename_i e; split at e <;> exact absurd e (by simp))

theorem bal_ask : Bal w h g ask := fun _ hp => hp

theorem bal_wrong (x : Site) : Bal w h g (wrong x) := fun _ hp => hp

theorem bal_cond : Bal w h g cond := bal_bind bal_ask fun _ => bal_pure _

theorem bal_attempt {α : Type} {x : M α} (hx : Bal w h g x) : Bal w h g (attempt x) :=
  tri_weaken (tri_attempt hx) (fun _ p => p) (fun r s p => by cases r <;> exact p) (fun _ p => p)

theorem bal_times {x : M Unit} (hx : Bal w h g x) : ∀ n, Bal w h g (times n x)
  | 0 => bal_pure _
  | n + 1 => bal_bind hx fun _ => bal_times hx n

theorem bal_ite {α : Type} {c : Prop} [Decidable c] {x y : M α} (hx : Bal w h g x) (hy : Bal w h g y) :
    Bal w h g (if c then x else y) := by split <;> assumption

/-- A step that does not fail. -/
theorem bal_sure {x : Site} (hx : ∀ n, w.fails x n = false) {E} :
    Tri w (H h g) (fallible x) (fun _ => H h g) E := by
  intro s hp
  unfold fallible
  rw [hx]; exact hp

theorem t_ask {E} : Tri w (H h g) ask (fun _ => H h g) E := fun _ hp => hp

theorem t_wrong {x E} : Tri w (H h g) (wrong x) (fun _ => H h g) E := fun _ hp => hp

theorem t_cond {E} : Tri w (H h g) Hold.cond (fun _ => H h g) E := fun _ hp => hp

/-- Whatever fails within is caught. -/
theorem t_attempt {α : Type} {x : M α} {E} (hx : Bal w h g x) :
    Tri w (H h g) (attempt x) (fun _ => H h g) E :=
  tri_weaken (tri_attempt hx) (fun _ p => p) (fun r s p => by cases r <;> exact p) (fun _ p => p)

/-! ### Sections -/

theorem perm_top {h h' : List Lock} (e : h'.Perm h) : ∀ m ∈ h', depth m ≤ top h :=
  fun _ hm => depth_le_top (e.mem_iff.1 hm)

/-- A short lock is taken. -/
theorem take_short {l : Lock} {E} (ht : top h < depth l) (hl : depth l ≠ 0 := by decide) :
    Tri w (H h g) (take l) (fun _ => H (l :: h) g) E := by
  apply tri_take
  · intro h' e
    have hd : ∀ m ∈ h', depth m < depth l := fun m hm => Nat.lt_of_le_of_lt (perm_top e m hm) ht
    cases l <;> first | exact hd | exact absurd rfl hl
  · refine ⟨fun e => absurd (e ▸ rfl : depth l = 0) hl, fun e => absurd (e ▸ rfl : depth l = 0) hl, fun _ hm => ?_⟩
    have := depth_le_top hm
    omega

/-- A short lock is given back. -/
theorem give_short {l : Lock} {E} (hl : depth l ≠ 0 := by decide) :
    Tri w (H (l :: h) g) (give l) (fun _ => H h g) E := by
  apply tri_give
  intro h' _
  cases l <;> first | trivial | exact absurd rfl hl

theorem take_shared {E} (ht : top h = 0) (hx : .exclusive ∉ h) :
    Tri w (H h g) (take .shared) (fun _ => H (.shared :: h) g) E := by
  apply tri_take
  · intro h' e m hm
    have := perm_top e m hm
    omega
  · exact ⟨fun _ => hx, nofun, fun h => absurd rfl h⟩

theorem take_exclusive {E} (ht : top h = 0) (hx : .exclusive ∉ h) (hs : .shared ∉ h) :
    Tri w (H h g) (take .exclusive) (fun _ => H (.exclusive :: h) g) E := by
  apply tri_take
  · intro h' e m hm
    have := perm_top e m hm
    omega
  · exact ⟨nofun, fun _ => ⟨hx, hs⟩, fun h => absurd rfl h⟩

theorem give_shared {E} : Tri w (H (.shared :: h) g) (give .shared) (fun _ => H h g) E :=
  tri_give fun _ _ => trivial

theorem give_exclusive {E} : Tri w (H (.exclusive :: h) g) (give .exclusive) (fun _ => H h g) E :=
  tri_give fun _ _ => trivial

theorem unlock_shared {E} (hx : .exclusive ∉ h) :
    Tri w (H (.shared :: h) g) control_unlock (fun _ => H h g) E := by
  intro s hp
  have : s.held.contains .exclusive = false := by
    cases e : s.held.contains .exclusive
    · rfl
    · have := hp.1.mem_iff.1 (List.contains_iff_mem.1 e)
      rcases List.mem_cons.1 this with h | h
      · exact absurd h (by decide)
      · exact absurd h hx
  unfold control_unlock
  rw [this]
  exact give_shared s hp

theorem unlock_exclusive {E} : Tri w (H (.exclusive :: h) g) control_unlock (fun _ => H h g) E := by
  intro s hp
  have : s.held.contains .exclusive = true :=
    List.contains_iff_mem.2 (hp.1.mem_iff.2 (List.mem_cons_self ..))
  unfold control_unlock
  rw [this]
  exact give_exclusive s hp

/-- The lock of a partition. -/
def Of (lock : Nat → Lock) : Prop := lock = .access ∨ lock = .service

theorem take_part {lock : Nat → Lock} (hl : Of lock) {i E} (hm : .mutex ∈ h) (ht : top h ≤ 1) :
    Tri w (H h g) (take (lock i)) (fun _ => H (lock i :: h) g) E := by
  rcases hl with rfl | rfl
  all_goals
    apply tri_take
    · exact fun h' e => ⟨e.mem_iff.2 hm, fun m hm => Nat.le_trans (perm_top e m hm) ht⟩
    · exact ⟨nofun, nofun, fun h => absurd rfl h⟩

theorem give_part {lock : Nat → Lock} (hl : Of lock) {i E} (hm : .mutex ∈ h) :
    Tri w (H (lock i :: h) g) (give (lock i)) (fun _ => H h g) E := by
  rcases hl with rfl | rfl
  all_goals
    apply tri_give
    exact fun h' e => e.mem_iff.2 (List.mem_cons_of_mem _ hm)

/-- Order does not count. -/
theorem tri_perm {α : Type} {h' : List Lock} {x : M α} {Q E} (e : h'.Perm h) (t : Tri w (H h g) x Q E) :
    Tri w (H h' g) x Q E := fun s hp => t s (h_perm hp e)

/-- A section under a short lock, with nothing in it that fails. -/
theorem bal_section {l : Lock} (ht : top h < depth l) (hl : depth l ≠ 0) :
    Bal w h g (do take l; give l) :=
  tri_bind _ (take_short ht hl) fun _ => give_short hl

theorem of_access : Of .access := .inl rfl
theorem of_service : Of .service := .inr rfl

theorem depth_part {lock : Nat → Lock} (hl : Of lock) (i : Nat) : depth (lock i) = 0 := by
  rcases hl with rfl | rfl <;> rfl

end Verif.C79
