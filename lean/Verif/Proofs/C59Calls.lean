import Verif.Proofs.C59

namespace Verif.C59
open Act

/-- The partition locks of cursors in `ps`. -/
abbrev acc (ps : List Nat) : List Nat := ps.map accessOf

theorem acc_inj {a b : Nat} : accessOf a = accessOf b ↔ a = b := by unfold accessOf; omega

theorem acc_erase (p : Nat) (ps : List Nat) : (acc ps).erase (accessOf p) = acc (ps.erase p) := by
  induction ps with
  | nil => rfl
  | cons a ps ih =>
    by_cases e : a = p
    · subst e; simp [acc]
    · have e2 : accessOf a ≠ accessOf p := fun h => e (acc_inj.1 h)
      rw [List.erase_cons_tail (by simpa using e)]
      show (accessOf a :: acc ps).erase (accessOf p) = accessOf a :: acc (ps.erase p)
      rw [List.erase_cons_tail (by simpa using e2), ih]

theorem mem_acc {p : Nat} {ps : List Nat} (h : p ∈ ps) : accessOf p ∈ acc ps := List.mem_map.2 ⟨p, h, rfl⟩

theorem le_acc {p : Nat} {ps : List Nat} (h : ∀ x ∈ ps, x ≤ p) : ∀ x ∈ acc ps, x ≤ accessOf p := by
  intro x hx
  obtain ⟨y, hy, rfl⟩ := List.mem_map.1 hx
  have := h y hy
  unfold accessOf; omega

theorem lt_acc {p : Nat} {ps : List Nat} (h : ∀ x ∈ ps, x < p) : ∀ x ∈ acc ps, x ≤ serviceOf p := by
  intro x hx
  obtain ⟨y, hy, rfl⟩ := List.mem_map.1 hx
  have := h y hy
  unfold accessOf serviceOf; omega

theorem ok_lock {first : Bool} {h : List Nat} {sh : Nat} {l : Nat} {k : List Act} (hf : first = true → h = [] ∧ sh = 0)
    (hle : ∀ x ∈ h, x ≤ l) (hk : Ok first ⟨l :: h, sh + 1, false⟩ k) :
    Ok first ⟨h, sh, false⟩ (engine_lock l ++ k) := by
  simp only [engine_lock, List.cons_append, List.nil_append, Ok]
  exact ⟨trivial, hf, trivial, Nat.succ_pos _, hle, hk⟩

theorem ok_unlock {first : Bool} {h : List Nat} {sh : Nat} {l : Nat} {k : List Act} (hl : l ∈ h)
    (hk : Ok first ⟨h.erase l, sh, false⟩ k) : Ok first ⟨h, sh + 1, false⟩ (engine_unlock l ++ k) := by
  simp only [engine_unlock, List.cons_append, List.nil_append, Ok]
  exact ⟨trivial, hl, .inr ⟨trivial, Nat.succ_pos _, hk⟩⟩

theorem ok_unlock_head {first : Bool} {h : List Nat} {sh : Nat} {l : Nat} {k : List Act}
    (hk : Ok first ⟨h, sh, false⟩ k) : Ok first ⟨l :: h, sh + 1, false⟩ (engine_unlock l ++ k) :=
  ok_unlock (by simp) (by rw [List.erase_cons_head]; exact hk)

theorem ok_pulse {first : Bool} {h : List Nat} {sh : Nat} {l : Nat} {k : List Act} (hle : ∀ x ∈ h, x ≤ l)
    (hs : 0 < sh) (hk : Ok first ⟨h, sh, false⟩ k) : Ok first ⟨h, sh, false⟩ ([take l, give l] ++ k) := by
  simp only [List.cons_append, List.nil_append, Ok]
  exact ⟨trivial, hs, hle, trivial, by simp, by rw [List.erase_cons_head]; exact hk⟩

theorem ok_locks {k : List Act} : ∀ (ps h : List Nat) (sh : Nat), ps.Pairwise (· ≤ ·) →
    (∀ p ∈ ps, ∀ x ∈ h, x ≤ accessOf p) → Ok false ⟨acc ps.reverse ++ h, sh + ps.length, false⟩ k →
    Ok false ⟨h, sh, false⟩ (ps.flatMap (fun p => engine_lock (accessOf p)) ++ k) := by
  intro ps
  induction ps with
  | nil => intro h sh _ _ hk; simpa using hk
  | cons p ps ih =>
    intro h sh hs hle hk
    rw [List.pairwise_cons] at hs
    rw [List.flatMap_cons, List.append_assoc]
    refine ok_lock (by intro e; cases e) (hle p (by simp)) ?_
    refine ih _ _ hs.2 ?_ ?_
    · intro q hq x hx
      rcases List.mem_cons.1 hx with rfl | hx
      · have := hs.1 q hq; unfold accessOf; omega
      · exact hle q (List.mem_cons_of_mem _ hq) x hx
    · have e : sh + 1 + ps.length = sh + (p :: ps).length := by simp; omega
      rw [e]
      simpa [acc] using hk

theorem ok_unlocks {first : Bool} {k : List Act} (h0 : List Nat) : ∀ (qs h : List Nat) (sh : Nat),
    h.Perm (acc qs ++ h0) → Ok first ⟨h0, sh, false⟩ k →
    Ok first ⟨h, sh + qs.length, false⟩ (qs.flatMap (fun p => engine_unlock (accessOf p)) ++ k) := by
  intro qs
  induction qs with
  | nil =>
    intro h sh hp hk
    exact ok_perm (g := ⟨h0, sh, false⟩) hp.symm hk
  | cons q qs ih =>
    intro h sh hp hk
    rw [List.flatMap_cons, List.append_assoc]
    have e : sh + (q :: qs).length = (sh + qs.length) + 1 := by simp; omega
    rw [e]
    have hmem : accessOf q ∈ h := hp.mem_iff.2 (by simp [acc])
    refine ok_unlock hmem (ih _ _ ?_ hk)
    have := hp.erase (accessOf q)
    simpa [acc] using this

theorem ok_batch {k : List Act} (ps qs h : List Nat) (sh : Nat) (hq : ps.Perm qs) (hs : ps.Pairwise (· ≤ ·))
    (hle : ∀ p ∈ ps, ∀ x ∈ h, x ≤ accessOf p) (hk : Ok false ⟨h, sh, false⟩ k) :
    Ok false ⟨h, sh, false⟩ (ps.flatMap (fun p => engine_lock (accessOf p)) ++
      qs.flatMap (fun p => engine_unlock (accessOf p)) ++ k) := by
  rw [List.append_assoc]
  refine ok_locks ps h sh hs hle ?_
  rw [hq.length_eq]
  refine ok_unlocks h qs _ sh ?_ hk
  exact (((List.reverse_perm ps).trans hq).map accessOf).append_right h

theorem ok_file {first : Bool} {h : List Nat} {sh p : Nat} {k : List Act} (hf : first = true → h = [] ∧ sh = 0)
    (hle : ∀ x ∈ h, x ≤ serviceOf p) (hk : Ok first ⟨h, sh, false⟩ k) : Ok first ⟨h, sh, false⟩ (engine_file p ++ k) := by
  unfold engine_file
  simp only [List.append_assoc]
  refine ok_lock hf hle (ok_pulse ?_ (Nat.succ_pos _) (ok_unlock_head hk))
  intro x hx
  rcases List.mem_cons.1 hx with rfl | hx
  · unfold serviceOf accessOf; omega
  · have := hle x hx; unfold serviceOf at this; unfold accessOf; omega

theorem ok_nothing {first : Bool} {h : List Nat} {sh p : Nat} {k : List Act} (hf : first = true → h = [] ∧ sh = 0)
    (hle : ∀ x ∈ h, x ≤ serviceOf p) (hk : Ok first ⟨h, sh, false⟩ k) :
    Ok first ⟨h, sh, false⟩ (engine_file_nothing p ++ k) := by
  unfold engine_file_nothing
  simp only [List.append_assoc]
  exact ok_lock hf hle (ok_unlock_head hk)

theorem ok_refresh {first : Bool} {h : List Nat} {sh p : Nat} {k : List Act} (hf : first = true → h = [] ∧ sh = 0)
    (hle : ∀ x ∈ h, x ≤ serviceOf p) (hk : Ok first ⟨h, sh, false⟩ k) : Ok first ⟨h, sh, false⟩ (refresh_run p ++ k) := by
  unfold refresh_run
  simp only [List.append_assoc]
  have hle2 : ∀ x ∈ serviceOf p :: h, x ≤ accessOf p := by
    intro x hx
    rcases List.mem_cons.1 hx with rfl | hx
    · unfold serviceOf accessOf; omega
    · have := hle x hx; unfold serviceOf at this; unfold accessOf; omega
  exact ok_lock hf hle (ok_pulse hle2 (Nat.succ_pos _) (ok_pulse hle2 (Nat.succ_pos _) (ok_unlock_head hk)))

theorem ok_brief {first : Bool} {h : List Nat} {sh : Nat} {k : List Act} (hf : first = true → h = [] ∧ sh = 0)
    (hk : Ok first ⟨h, sh, false⟩ k) : Ok first ⟨h, sh, false⟩ (brief ++ k) := by
  simp only [brief, List.cons_append, List.nil_append, Ok]
  exact ⟨trivial, hf, .inr ⟨trivial, Nat.succ_pos _, hk⟩⟩

theorem ok_show {h : List Nat} {sh : Nat} {k : List Act}
    (hk : Ok false ⟨h, sh, false⟩ k) : Ok false ⟨h, sh, false⟩ (show_engine ++ k) := by
  simp only [show_engine, List.cons_append, List.nil_append, Ok]
  exact ⟨trivial, (fun e => by cases e), trivial, (fun e => by cases e),
    .inr ⟨trivial, Nat.succ_pos _, .inr ⟨trivial, Nat.succ_pos _, hk⟩⟩⟩

theorem ok_alter {first : Bool} {k : List Act} (hk : Ok first ⟨[], 0, false⟩ k) :
    Ok first ⟨[], 0, false⟩ (alter ++ k) := by
  simp only [alter, List.cons_append, List.nil_append, Ok]
  exact ⟨trivial, trivial, trivial, .inl ⟨trivial, trivial, trivial, hk⟩⟩

theorem upwards_ok : ∀ (prog : List Call) (held : List Nat), Upwards held prog →
    Ok false ⟨acc held, held.length, false⟩ (acts prog) := by
  intro prog
  induction prog with
  | nil => intro held h; simp only [Upwards] at h; subst h; exact ⟨rfl, rfl, rfl⟩
  | cons c prog ih =>
    intro held h
    have hff : ∀ {a : Prop}, (false = true → a) := by intro a e; cases e
    unfold acts
    rw [List.flatMap_cons]
    have ih' : ∀ held, Upwards held prog → Ok false ⟨acc held, held.length, false⟩ (prog.flatMap Call.acts) := ih
    cases c with
    | write ps =>
      simp only [Upwards] at h
      exact ok_batch ps ps _ _ (List.Perm.refl _) h.1 (fun p hp => le_acc (fun x hx => h.2.1 x hx p hp)) (ih' held h.2.2)
    | writeFailed ps =>
      simp only [Upwards] at h
      exact ok_batch ps ps.reverse _ _ (List.reverse_perm ps).symm h.1
        (fun p hp => le_acc (fun x hx => h.2.1 x hx p hp)) (ih' held h.2.2)
    | openCursor p =>
      simp only [Upwards] at h
      exact ok_lock hff (le_acc h.1) (ih' (p :: held) h.2)
    | moveCursor p q =>
      simp only [Upwards] at h
      show Ok false _ (engine_unlock (accessOf p) ++ engine_lock (accessOf q) ++ _)
      rw [List.append_assoc]
      have hpos : 0 < held.length := List.length_pos_of_mem h.1
      have hlen := List.length_erase_of_mem h.1
      have e : held.length = (held.erase p).length + 1 := by omega
      rw [e]
      refine ok_unlock (mem_acc h.1) ?_
      rw [acc_erase]
      exact ok_lock hff (le_acc h.2.1) (ih' (q :: held.erase p) h.2.2)
    | closeCursor p =>
      simp only [Upwards] at h
      have hpos : 0 < held.length := List.length_pos_of_mem h.1
      have hlen := List.length_erase_of_mem h.1
      have e : held.length = (held.erase p).length + 1 := by omega
      rw [e]
      refine ok_unlock (mem_acc h.1) ?_
      rw [acc_erase]
      exact ih' (held.erase p) h.2
    | visit p =>
      simp only [Upwards] at h
      show Ok false _ (engine_lock (accessOf p) ++ engine_unlock (accessOf p) ++ _)
      rw [List.append_assoc]
      exact ok_lock hff (le_acc h.1) (ok_unlock_head (ih' held h.2))
    | file p => simp only [Upwards] at h; exact ok_file hff (lt_acc h.1) (ih' held h.2)
    | nothing p => simp only [Upwards] at h; exact ok_nothing hff (lt_acc h.1) (ih' held h.2)
    | refresh p => simp only [Upwards] at h; exact ok_refresh hff (lt_acc h.1) (ih' held h.2)
    | look => simp only [Upwards] at h; exact ok_brief hff (ih' held h)
    | showAll => simp only [Upwards] at h; exact ok_show (ih' held h)
    | change =>
      simp only [Upwards] at h
      obtain ⟨rfl, h⟩ := h
      exact ok_alter (ih' [] h)

theorem ok_event {first : Bool} {p : Nat} {k : List Act} (hk : Ok first ⟨[], 0, false⟩ k) :
    Ok first ⟨[], 0, false⟩ (engine_lock (accessOf p) ++ engine_unlock (accessOf p) ++ k) := by
  rw [List.append_assoc]
  exact ok_lock (fun _ => ⟨rfl, rfl⟩) (by intro x hx; cases hx) (ok_unlock_head hk)

theorem single_ok (first : Bool) : ∀ (prog : List Call) (held : List Nat), Single held prog →
    Ok first ⟨acc held, held.length, false⟩ (acts prog) := by
  intro prog
  induction prog with
  | nil => intro held h; simp only [Single] at h; subst h; exact ⟨rfl, rfl, rfl⟩
  | cons c prog ih =>
    intro held h
    unfold acts
    rw [List.flatMap_cons]
    have ih' : ∀ held, Single held prog → Ok first ⟨acc held, held.length, false⟩ (prog.flatMap Call.acts) := ih
    have hno : ∀ {b : Nat}, ∀ x ∈ ([] : List Nat), x ≤ b := by intro b x hx; cases hx
    cases c with
    | write ps =>
      simp only [Single] at h
      obtain ⟨rfl, hl, h⟩ := h
      match ps, hl with
      | [], _ => exact ih' [] h
      | [p], _ =>
        show Ok first ⟨[], 0, false⟩ (write [p] ++ _)
        have e : write [p] = engine_lock (accessOf p) ++ engine_unlock (accessOf p) := by simp [write]
        rw [e]
        exact ok_event (ih' [] h)
      | _ :: _ :: _, hl => simp at hl
    | writeFailed ps =>
      simp only [Single] at h
      obtain ⟨rfl, hl, h⟩ := h
      match ps, hl with
      | [], _ => exact ih' [] h
      | [p], _ =>
        show Ok first ⟨[], 0, false⟩ (write_failed [p] ++ _)
        have e : write_failed [p] = engine_lock (accessOf p) ++ engine_unlock (accessOf p) := by simp [write_failed]
        rw [e]
        exact ok_event (ih' [] h)
      | _ :: _ :: _, hl => simp at hl
    | openCursor p =>
      simp only [Single] at h
      obtain ⟨rfl, h⟩ := h
      exact ok_lock (fun _ => ⟨rfl, rfl⟩) hno (ih' [p] h)
    | moveCursor p q =>
      simp only [Single] at h
      obtain ⟨rfl, h⟩ := h
      show Ok first _ (engine_unlock (accessOf p) ++ engine_lock (accessOf q) ++ _)
      rw [List.append_assoc]
      exact ok_unlock_head (ok_lock (fun _ => ⟨rfl, rfl⟩) hno (ih' [q] h))
    | closeCursor p =>
      simp only [Single] at h
      obtain ⟨rfl, h⟩ := h
      exact ok_unlock_head (ih' [] h)
    | visit p =>
      simp only [Single] at h
      obtain ⟨rfl, h⟩ := h
      exact ok_event (ih' [] h)
    | file p => simp only [Single] at h; obtain ⟨rfl, h⟩ := h; exact ok_file (fun _ => ⟨rfl, rfl⟩) hno (ih' [] h)
    | nothing p => simp only [Single] at h; obtain ⟨rfl, h⟩ := h; exact ok_nothing (fun _ => ⟨rfl, rfl⟩) hno (ih' [] h)
    | refresh p => simp only [Single] at h; obtain ⟨rfl, h⟩ := h; exact ok_refresh (fun _ => ⟨rfl, rfl⟩) hno (ih' [] h)
    | look => simp only [Single] at h; obtain ⟨rfl, h⟩ := h; exact ok_brief (fun _ => ⟨rfl, rfl⟩) (ih' [] h)
    | showAll => simp only [Single] at h
    | change =>
      simp only [Single] at h
      obtain ⟨rfl, h⟩ := h
      exact ok_alter (ih' [] h)

end Verif.C59
