import Verif.Spec.C93

/-! Triples for C93: what every step of the model does to the descriptors. -/
namespace Verif.C93
open Verif.Descr

/-- The table of descriptors and its holders agree. -/
def Sane (w : World) : Prop :=
  w.fds.Nodup ∧ (∀ d ∈ w.fds, d < w.next) ∧ (∀ s d, w.files s = some d → d ∈ w.fds) ∧
  ∀ s t d, w.files s = some d → w.files t = some d → s = t

/-- All descriptors but `k` are held, by somebody not in `N`. -/
def Acc (N : Slot → Prop) (k : Nat) (w : World) : Prop :=
  ∃ L : List Nat, L.length ≤ k ∧ ∀ d ∈ w.fds, d ∈ L ∨ ∃ s, ¬ N s ∧ w.files s = some d

structure A (N : Slot → Prop) (k : Nat) (R : List (Nat × Part)) (n : Nat) (w : World) : Prop where
  sane : Sane w
  acc : Acc N k w
  refs : w.refs = R
  workers : w.workers = n

/-- From `P`, `m` ends with `Q` or throws with `E`. -/
def Tri (P : World → Prop) (m : M Unit) (Q E : World → Prop) : Prop :=
  ∀ w, P w → match m w with
    | .ok _ w' => Q w'
    | .err w' => E w'
    | .bad => False

abbrev Keeps (m : M Unit) : Prop := Tri Sane m Sane Sane

theorem bind_def {α β : Type} (m : M α) (f : α → M β) : (m >>= f) = M.bind m f := rfl

theorem tri_bind {P Q R E : World → Prop} {m : M Unit} {f : Unit → M Unit} (h1 : Tri P m Q E)
    (h2 : Tri Q (f ()) R E) : Tri P (m >>= f) R E := by
  intro w hp
  have := h1 w hp
  rw [bind_def]
  unfold M.bind
  cases hm : m w with
  | ok a w' => rw [hm] at this; exact h2 w' this
  | err w' => rw [hm] at this; exact this
  | bad => rw [hm] at this; exact this

theorem tri_conseq {P P' Q Q' E E' : World → Prop} {m : M Unit} (h : Tri P m Q E) (hp : ∀ w, P' w → P w)
    (hq : ∀ w, Q w → Q' w) (he : ∀ w, E w → E' w) : Tri P' m Q' E' := by
  intro w hw
  have := h w (hp w hw)
  cases hm : m w with
  | ok a w' => rw [hm] at this; exact hq _ this
  | err w' => rw [hm] at this; exact he _ this
  | bad => rw [hm] at this; exact this

theorem tri_pure {P E : World → Prop} : Tri P (pure ()) P E := fun _ h => h

theorem tri_throw {P Q : World → Prop} : Tri P throw_ Q P := fun _ h => h

theorem tri_modify {P Q E : World → Prop} {f : World → World} (h : ∀ w, P w → Q (f w)) :
    Tri P (modify_ f) Q E := fun w hw => h w hw

theorem sys_eq (w : World) : sys w = .ok (w.io.headD true) { w with io := w.io.tail } := rfl

theorem check_eq (w : World) : check w =
    if w.io.headD true then .ok () { w with io := w.io.tail } else .err { w with io := w.io.tail } := by
  unfold check
  rw [bind_def]
  unfold M.bind
  rw [sys_eq]
  dsimp only
  cases w.io.headD true <;> rfl

theorem create_eq (s : Slot) (w : World) : fileCreate s w =
    if w.io.headD true then
      .ok () (put s (some w.next) { w with io := w.io.tail, fds := w.next :: w.fds, next := w.next + 1 })
    else .err (put s none { w with io := w.io.tail }) := by
  unfold fileCreate
  rw [bind_def]
  unfold M.bind
  rw [sys_eq]
  dsimp only
  cases w.io.headD true <;> rfl

theorem tri_check {P : World → Prop} (h : ∀ w io, P w → P { w with io := io }) : Tri P check P P := by
  intro w hw
  rw [check_eq]
  split <;> rename_i h' <;> revert h' <;> split <;> intro h' <;> injections <;> subst_vars <;> exact h _ _ hw

/-! ### Sane -/

theorem sane_io {w : World} {io : List Bool} (h : Sane w) : Sane { w with io := io } := h

theorem sane_none {w : World} (s : Slot) (h : Sane w) : Sane (put s none w) := by
  refine ⟨h.1, h.2.1, ?_, ?_⟩
  · intro t d ht
    simp only [put] at ht
    split at ht
    · cases ht
    · exact h.2.2.1 t d ht
  · intro t u d ht hu
    simp only [put] at ht hu
    split at ht
    · cases ht
    · split at hu
      · cases hu
      · exact h.2.2.2 t u d ht hu

theorem sane_new {w : World} (s : Slot) (h : Sane w) :
    Sane (put s (some w.next) { w with fds := w.next :: w.fds, next := w.next + 1 }) := by
  have hf : w.next ∉ w.fds := fun hh => Nat.lt_irrefl _ (h.2.1 _ hh)
  refine ⟨List.nodup_cons.2 ⟨hf, h.1⟩, ?_, ?_, ?_⟩
  · intro d hd
    show d < w.next + 1
    rcases List.mem_cons.1 hd with rfl | hd
    · omega
    · have := h.2.1 d hd; omega
  · intro t d ht
    simp only [put] at ht ⊢
    split at ht
    · cases ht; exact List.mem_cons_self
    · exact List.mem_cons_of_mem _ (h.2.2.1 t d ht)
  · intro t u d ht hu
    simp only [put] at ht hu
    split at ht
    · rename_i h1
      cases ht
      split at hu
      · rename_i h2; rw [h1, h2]
      · exact absurd (h.2.2.1 _ _ hu) hf
    · split at hu
      · cases hu; exact absurd (h.2.2.1 _ _ ht) hf
      · exact h.2.2.2 t u d ht hu

theorem sane_close {w : World} {s : Slot} {d : Nat} (hd : w.files s = some d) (h : Sane w) :
    Sane (put s none { w with fds := w.fds.erase d }) := by
  refine ⟨h.1.erase d, fun e he => h.2.1 e (List.mem_of_mem_erase he), ?_, ?_⟩
  · intro t e ht
    simp only [put] at ht ⊢
    split at ht
    · cases ht
    · rename_i hne
      have : e ≠ d := fun he => hne (h.2.2.2 t s e ht (he ▸ hd))
      exact (List.mem_erase_of_ne this).2 (h.2.2.1 t e ht)
  · exact (sane_none s h).2.2.2

theorem close_eq (s : Slot) (w : World) (h : Sane w) : fileClose s w = match w.files s with
    | none => .ok () w
    | some d => .ok () (put s none { w with fds := w.fds.erase d }) := by
  unfold fileClose
  cases hs : w.files s with
  | none => rfl
  | some d => simp only [if_pos (h.2.2.1 s d hs)]

theorem k_check : Keeps check := tri_check fun _ _ h => h

theorem k_init (s : Slot) : Keeps (fileInit s) := tri_modify fun _ h => sane_none s h

theorem k_create (s : Slot) : Keeps (fileCreate s) := by
  intro w h
  rw [create_eq]
  split <;> rename_i h' <;> revert h' <;> split <;> intro h' <;> injections <;> subst_vars
  · exact sane_new s (w := { w with io := w.io.tail }) h
  · exact sane_none s (w := { w with io := w.io.tail }) h

theorem k_open (s : Slot) : Keeps (fileOpen s) := tri_bind k_check (k_create s)

theorem k_close (s : Slot) {E : World → Prop} : Tri Sane (fileClose s) Sane E := by
  intro w h
  rw [close_eq s w h]
  cases hs : w.files s with
  | none => exact h
  | some d => exact sane_close hs h

theorem tri_guarded {P Q Q' E E' : World → Prop} {s : Slot} {m : M Unit} (h : Tri P m Q E)
    (hq : ∀ F, Tri Q (fileClose s) Q' F) (he : ∀ F, Tri E (fileClose s) E' F) : Tri P (guarded s m) Q' E' := by
  intro w hw
  have := h w hw
  unfold guarded
  cases hm : m w with
  | ok a w' => rw [hm] at this; exact hq _ w' this
  | err w' => rw [hm] at this; exact tri_bind (he _) tri_throw w' this
  | bad => rw [hm] at this; exact this

theorem tri_onError {P Q E E' : World → Prop} {s : Slot} {m : M Unit} (h : Tri P m Q E)
    (he : ∀ F, Tri E (fileClose s) E' F) : Tri P (onError s m) Q E' := by
  intro w hw
  have := h w hw
  unfold onError
  cases hm : m w with
  | ok a w' => rw [hm] at this; exact this
  | err w' => rw [hm] at this; exact tri_bind (he _) tri_throw w' this
  | bad => rw [hm] at this; exact this

theorem k_guarded {s : Slot} {m : M Unit} (h : Keeps m) : Keeps (guarded s m) :=
  tri_guarded h (fun _ => k_close s) (fun _ => k_close s)

theorem k_lock (s : Slot) : Keeps (fileLock s) := by
  unfold fileLock
  refine tri_bind k_check ?_
  intro w h
  dsimp only
  cases w.files s with
  | none => exact h
  | some d =>
    dsimp only
    split <;> rename_i h' <;> revert h' <;> split <;> intro h' <;> injections <;> subst_vars <;> exact h

theorem k_ite {c : Prop} [Decidable c] {a b : M Unit} (ha : Keeps a) (hb : Keeps b) : Keeps (if c then a else b) := by
  split
  · exact ha
  · exact hb

theorem k_choose {c : Bool} {a b : M Unit} (ha : Keeps a) (hb : Keeps b) : Keeps (choose c a b) := k_ite ha hb

theorem k_temporary (c : Bool) : Keeps (temporary c) :=
  tri_bind (k_init _) (k_guarded (tri_bind (k_choose (k_create _) (k_open _)) k_check))

theorem k_copy : Keeps copy :=
  tri_bind k_check (tri_bind (k_temporary _) (tri_bind k_check (k_temporary _)))

theorem k_partOpen (s : Slot) : Keeps (partOpen s) := tri_bind (k_open s) k_check

theorem k_partCreateCloud : Keeps partCreateCloud :=
  tri_bind (k_init _) (k_guarded (tri_bind (k_open _) (tri_bind k_check (tri_bind (k_close _)
    (tri_bind (k_init _) (tri_bind (k_create _) (tri_bind k_check (k_close _))))))))

theorem k_setPart (id : Nat) (p : Part) : Keeps (modify_ (setPart id p)) := tri_modify fun _ h => h

theorem k_onPart {id : Nat} {f : Part → M Unit} (h : ∀ p, Keeps (f p)) : Keeps (onPart id f) := by
  intro w hw
  unfold onPart
  cases find id w with
  | none => exact hw
  | some p => exact h p w hw

theorem k_createPart (id : Nat) : Keeps (create id) := by
  intro w hw
  unfold create
  cases find id w with
  | some p => exact hw
  | none => exact sane_none (w := { w with refs := (id, ⟨false, false⟩) :: w.refs }) _ hw

theorem k_download (id : Nat) : Keeps (download id) :=
  k_onPart fun _ => k_ite tri_pure (tri_bind k_copy (tri_bind (k_partOpen _) (k_setPart _ _)))

theorem k_upload (id : Nat) : Keeps (upload id) :=
  k_onPart fun _ => k_ite tri_pure (k_ite tri_throw (tri_bind k_check (tri_bind k_partCreateCloud
    (tri_bind k_copy (tri_bind k_check (k_setPart _ _))))))

theorem k_dropCloud (id : Nat) : Keeps (dropCloud id) :=
  k_onPart fun _ => k_ite (tri_bind k_check (k_setPart _ _)) tri_pure

theorem k_dropStorage (id : Nat) : Keeps (dropStorage id) :=
  k_onPart fun _ => k_ite (tri_bind (k_close _) (tri_bind k_check (k_setPart _ _))) tri_pure

theorem k_dropReference (id : Nat) : Keeps (dropReference id) :=
  k_onPart fun _ => k_ite tri_pure (tri_bind (k_close _) (tri_bind (tri_modify fun _ h => h) k_check))

theorem k_reset (r : Nat) {E : World → Prop} : Tri Sane (refreshReset r) Sane E :=
  tri_bind (tri_modify fun _ h => sane_none _ h) (k_close _)

theorem sane_move2 {w : World} {a b c : Slot} (hab : a ≠ b) (hac : a ≠ c) (hbc : b ≠ c) (h : Sane w) :
    Sane (put a none (put b (w.files a) (put c (w.files b) w))) := by
  refine ⟨h.1, h.2.1, ?_, ?_⟩
  · intro t d ht
    simp only [put] at ht
    split at ht
    · cases ht
    · split at ht
      · exact h.2.2.1 _ d ht
      · split at ht
        · exact h.2.2.1 _ d ht
        · exact h.2.2.1 _ d ht
  · intro t u d ht hu
    simp only [put] at ht hu
    have inj := h.2.2.2
    by_cases ha : t = a
    · rw [if_pos ha] at ht; cases ht
    · by_cases ha' : u = a
      · rw [if_pos ha'] at hu; cases hu
      · rw [if_neg ha] at ht
        rw [if_neg ha'] at hu
        by_cases hb : t = b <;> by_cases hb' : u = b <;> by_cases hc : t = c <;> by_cases hc' : u = c <;>
          simp only [hb, hb', hc, hc', if_true, if_false, Ne.symm hbc, hbc] at ht hu ⊢ <;>
          first
          | exact absurd (inj _ _ _ ht hu) (by first | assumption | exact fun e => hab e | exact fun e => hab e.symm | exact fun e => ha e | exact fun e => ha e.symm | exact fun e => ha' e | exact fun e => ha' e.symm | exact fun e => hb e | exact fun e => hb e.symm | exact fun e => hb' e | exact fun e => hb' e.symm)
          | exact inj _ _ _ ht hu
          | (exfalso; exact hbc (hb.symm.trans hc))
          | (exfalso; exact hbc (hb'.symm.trans hc'))

theorem k_refresh (r id : Nat) : Keeps (refresh r id) :=
  tri_bind (k_reset r) (k_onPart fun _ => k_ite tri_throw (tri_bind k_check (tri_bind (k_init _)
    (tri_bind (k_create _) (tri_bind k_check (tri_bind (tri_modify fun _ h => sane_move2 nofun nofun nofun h)
    (tri_bind (k_setPart _ _) (tri_bind k_check (tri_bind (k_close _) (tri_bind k_check
    (tri_bind (k_init _) k_check)))))))))))

theorem tri_command {P Q E Q' E' : World → Prop} {id : Nat} (h : ∀ w, P w → Tri (fun v => v = w) (refresh w.workers id) Q E)
    (hq : ∀ F w, Q w → Tri (fun v => v = w) (refreshReset w.workers) Q' F)
    (he : ∀ F w, E w → Tri (fun v => v = w) (refreshReset w.workers) E' F) : Tri P (refreshCommand id) Q' E' := by
  intro w hw
  have := h w hw w rfl
  unfold refreshCommand
  cases hm : refresh w.workers id w with
  | ok a w' => rw [hm] at this; exact hq _ w' this w' rfl
  | err w' => rw [hm] at this; exact tri_bind (he _ w' this) tri_throw w' rfl
  | bad => rw [hm] at this; exact this

theorem at_ {P Q E : World → Prop} {m : M Unit} (h : Tri P m Q E) {w : World} (hw : P w) :
    Tri (fun v => v = w) m Q E := tri_conseq h (fun _ e => e ▸ hw) (fun _ h => h) (fun _ h => h)

theorem k_command (id : Nat) : Keeps (refreshCommand id) :=
  tri_command (fun w hw => at_ (k_refresh w.workers id) hw) (fun _ _ hw => at_ (k_reset _) hw)
    (fun _ _ hw => at_ (k_reset _) hw)

theorem k_rotate (sync : Bool) : Keeps (rotate sync) :=
  tri_bind (k_init _) (tri_bind (tri_onError (k_create _) (fun _ => k_close _))
    (tri_bind (tri_modify fun _ h => sane_move2 nofun nofun nofun h)
      (tri_bind (k_choose k_check tri_pure) (k_close _))))

theorem k_readDir : Keeps readDir := tri_bind (k_init _) (k_guarded (tri_bind (k_create _) k_check))

theorem k_walOpen (f s : Bool) : Keeps (walOpen f s) :=
  tri_bind k_check (tri_bind k_readDir (k_choose (tri_bind (k_init _) (tri_bind (k_open _) k_check)) (k_rotate s)))

theorem k_walNext : ∀ n, Keeps (walNext n)
  | 0 => k_check
  | n + 1 => tri_bind k_check (tri_bind (k_close _) (tri_bind (k_init _) (tri_bind (k_open _) (k_walNext n))))

theorem k_replay (n : Nat) : Keeps (replay n) :=
  tri_bind (k_init _) (k_guarded (tri_bind (k_open _) (k_walNext n)))

/-- Some holders forget what they have. -/
theorem sane_forget {w w' : World} (h : Sane w) (h1 : w'.fds = w.fds) (h2 : w'.next = w.next)
    (h3 : ∀ s d, w'.files s = some d → w.files s = some d) : Sane w' :=
  ⟨h1 ▸ h.1, h1 ▸ h2 ▸ h.2.1, fun s d hs => h1 ▸ h.2.2.1 s d (h3 s d hs),
    fun s t d hs ht => h.2.2.2 s t d (h3 s d hs) (h3 t d ht)⟩

theorem k_found (ps : List (Nat × Part)) : Keeps (modify_ (foundParts ps)) := by
  refine tri_modify fun w h => sane_forget h rfl rfl ?_
  intro s d hs
  cases s <;> first | exact hs | (simp only [foundParts] at hs; split at hs; cases hs; exact hs)

theorem sane_move {w w' : World} {a b : Slot} (h : Sane w) (h1 : w'.fds = w.fds) (h2 : w'.next = w.next)
    (h3 : w'.files = fun t => if t = a then none else if t = b then w.files a else w.files t) (hab : a ≠ b) : Sane w' := by
  refine ⟨h1 ▸ h.1, h1 ▸ h2 ▸ h.2.1, ?_, ?_⟩
  · intro t d ht
    rw [h1]
    simp only [h3] at ht
    split at ht
    · cases ht
    · split at ht <;> exact h.2.2.1 _ d ht
  · intro t u d ht hu
    simp only [h3] at ht hu
    split at ht
    · cases ht
    · rename_i hta
      split at hu
      · cases hu
      · rename_i hua
        split at ht
        · rename_i htb
          split at hu
          · rename_i hub; rw [htb, hub]
          · exact absurd (h.2.2.2 _ _ _ ht hu).symm hua
        · split at hu
          · exact absurd (h.2.2.2 _ _ _ ht hu) hta
          · exact h.2.2.2 _ _ _ ht hu

theorem k_openParts : ∀ ps, Keeps (openParts ps)
  | [] => tri_pure
  | (id, p) :: ps => by
    refine tri_bind (k_init _) (tri_bind (k_choose (k_partOpen _) (k_temporary _)) (tri_bind ?_ (k_openParts ps)))
    exact tri_modify fun w h => sane_move (a := .found id) (b := .part id) h rfl rfl rfl nofun

theorem startWorkers_files {n : Nat} {w : World} (s : Slot) (d : Nat) (hs : (startWorkers n w).files s = some d) :
    w.files s = some d := by
  cases s <;> first | exact hs | cases hs

theorem forgetStored_files {w : World} (s : Slot) (d : Nat) (hs : (forgetStored w).files s = some d) :
    w.files s = some d := by
  cases s <;> first | exact hs | cases hs

theorem k_start (a : Start) : Keeps (start a) :=
  tri_bind k_check (tri_bind (k_open _) (tri_bind (k_lock _) (tri_bind (k_temporary _) (tri_bind k_check
    (tri_bind (k_choose (k_create _) tri_pure) (tri_bind k_check (tri_bind k_readDir (tri_bind (k_found _)
    (tri_bind k_check (tri_bind (k_openParts _)
    (tri_bind (k_choose (tri_bind (k_walOpen _ _) (k_replay _)) tri_pure)
      (tri_bind (tri_modify fun w h => sane_forget h rfl rfl startWorkers_files) k_check))))))))))))

theorem k_closeParts : ∀ ps, Keeps (closeParts ps)
  | [] => tri_pure
  | (_, _) :: ps => tri_bind (k_close _) (k_closeParts ps)

theorem k_stopWorkers : ∀ n, Keeps (stopWorkers n)
  | 0 => tri_pure
  | n + 1 => tri_bind (k_reset n) (k_stopWorkers n)

theorem k_free : Keeps free :=
  tri_bind (fun w h => k_stopWorkers w.workers w h) (tri_bind (tri_modify fun _ h => h)
    (tri_bind (fun w h => k_closeParts w.refs w h) (tri_bind (tri_modify fun _ h => h)
    (tri_bind (k_close _) (tri_bind (tri_modify fun w h => sane_forget h rfl rfl forgetStored_files)
      (tri_bind (k_close _) (k_close _)))))))

theorem k_run : ∀ op, Keeps (run op)
  | .start a => k_start a
  | .create id => k_createPart id
  | .download id => k_download id
  | .upload id => k_upload id
  | .dropCloud id => k_dropCloud id
  | .dropStorage id => k_dropStorage id
  | .dropReference id => k_dropReference id
  | .refresh r id => fun w h => by
    show match (if r < w.workers then refresh r id w else .err w) with
      | .ok _ w' => Sane w'
      | .err w' => Sane w'
      | .bad => False
    by_cases hr : r < w.workers
    · rw [if_pos hr]; exact k_refresh r id w h
    · rw [if_neg hr]; exact h
  | .refreshCommand id => k_command id
  | .rotate s => k_rotate s
  | .temporary c => k_temporary c
  | .free => k_free

theorem step_sane {w : World} {op : Op} {io : List Bool} (h : Sane w) :
    ∃ w' b, step w op io = some (w', b) ∧ Sane w' := by
  have := k_run op { w with io := io } h
  unfold step
  cases hm : run op { w with io := io } with
  | ok a w' => rw [hm] at this; exact ⟨_, _, rfl, sane_none _ this⟩
  | err w' => rw [hm] at this; exact ⟨_, _, rfl, sane_none _ this⟩
  | bad => rw [hm] at this; exact this.elim

theorem sane_init : Sane init := ⟨List.nodup_nil, fun _ h => (by cases h), fun _ _ h => (by cases h), fun _ _ _ h => (by cases h)⟩

theorem runs_sane : ∀ (h : List (Op × List Bool)) {w : World}, Sane w → ∃ w' bs, runs w h = some (w', bs) ∧ Sane w'
  | [], w, hw => ⟨w, [], rfl, hw⟩
  | (op, io) :: h, w, hw => by
    obtain ⟨w1, b, h1, hw1⟩ := step_sane (op := op) (io := io) hw
    obtain ⟨w2, bs, h2, hw2⟩ := runs_sane h hw1
    exact ⟨w2, b :: bs, by simp only [runs, h1, h2, Option.bind_some, Option.map_some], hw2⟩

end Verif.C93
