import Verif.Proofs.C81Calm

namespace Verif.C81
open C59 (Hold Ok acc Call)
open Act

theorem can_perm {first : Bool} {g : Hold} {h : List Nat} {a : Act} (hp : g.held.Perm h) (hc : Can first g a) :
    Can first { g with held := h } a := by
  have hnil : g.held = [] → h = [] := fun e => by rw [e] at hp; exact hp.symm.eq_nil
  cases a with
  | shared => exact ⟨hc.1, fun hf => ⟨hnil (hc.2 hf).1, (hc.2 hf).2⟩⟩
  | exclusive => exact ⟨hc.1, hnil hc.2.1, hc.2.2⟩
  | release =>
    rcases hc with hc | hc
    · exact .inl ⟨hc.1, hnil hc.2.1, hc.2.2⟩
    · exact .inr hc
  | take l => exact ⟨hc.1, hc.2.1, fun x hx => hc.2.2 x (hp.mem_iff.2 hx)⟩
  | give l => exact ⟨hc.1, hp.mem_iff.1 hc.2⟩

theorem after_perm {g : Hold} {h : List Nat} (a : Act) (hp : g.held.Perm h) :
    ∃ h', (g.after a).held.Perm h' ∧ ({ g with held := h } : Hold).after a = { g.after a with held := h' } := by
  cases a with
  | shared => exact ⟨h, hp, rfl⟩
  | exclusive => exact ⟨h, hp, rfl⟩
  | release =>
    refine ⟨h, ?_, ?_⟩
    · simp only [Hold.after]; split <;> exact hp
    · simp only [Hold.after]; split <;> rfl
  | take l => exact ⟨l :: h, hp.cons l, rfl⟩
  | give l => exact ⟨h.erase l, hp.erase l, rfl⟩

theorem good_perm {first : Bool} {g : Hold} {k : List Deed} (hg : Good first g k) : ∀ {h : List Nat}, g.held.Perm h →
    Good first { g with held := h } k := by
  induction hg with
  | nil hn =>
    intro h hp
    refine .nil ⟨?_, hn.2⟩
    rw [hn.1] at hp
    exact hp.symm.eq_nil
  | lock hc _ ih =>
    rename_i a _ _
    intro h hp
    refine .lock (can_perm hp hc) ?_
    obtain ⟨h', h1, h2⟩ := after_perm a hp
    rw [h2]
    exact ih h1
  | page _ _ hl ih1 ih2 => intro h hp; exact .page (ih1 hp) (ih2 hp) hl
  | rotate _ ih => intro h hp; exact .rotate (ih hp)
  | free _ ih => intro h hp; exact .free (ih hp)
  | drop _ ih => intro h hp; exact .drop (ih hp)
  | reset _ ih => intro h hp; exact .reset (ih hp)
  | fin _ ih => intro h hp; exact .fin (ih hp)

/-- All cursors closed. -/
def closing (H : List Nat) : List Act := C59.acts (H.map .closeCursor)

theorem closing_cons (p : Nat) (H : List Nat) : closing (p :: H) = .give (accessOf p) :: .release :: closing H := rfl

theorem closing_upwards (H : List Nat) : C59.Upwards H (H.map .closeCursor) := by
  induction H with
  | nil => rfl
  | cons p H ih =>
    refine ⟨by simp, ?_⟩
    rw [List.erase_cons_head]
    exact ih

/-- Only who holds these cursors can close them and be done. -/
theorem closing_unique : ∀ (H : List Nat) (g : Hold), Ok false g (closing H) →
    g.held.Perm (acc H) ∧ g.sh = H.length ∧ g.ex = false := by
  intro H
  induction H with
  | nil => intro g h; exact ⟨by rw [h.1]; exact .refl _, h.2.1, h.2.2⟩
  | cons p H ih =>
    intro g h
    rw [closing_cons] at h
    simp only [Ok] at h
    obtain ⟨hx, hm, h⟩ := h
    rcases h with h | h
    · rw [hx] at h; cases h.1
    · obtain ⟨h1, h2, h3⟩ := ih _ h.2.2
      refine ⟨?_, ?_, hx⟩
      · exact (List.perm_cons_erase hm).trans (h1.cons _)
      · simp only [List.length_cons] at h2 ⊢; have := h.2.1; omega

/-- A script without requests for memory, given that C59 accepts it. -/
theorem good_via {H : List Nat} {K : List Deed} (hK : Good false ⟨acc H, H.length, false⟩ K) :
    ∀ (ds : List Deed) (g : Hold), need ds = 0 → Ok false g (acts ds ++ closing H) → Good false g (ds ++ K) := by
  intro ds
  induction ds with
  | nil =>
    intro g _ h
    obtain ⟨h1, h2, h3⟩ := closing_unique H g h
    have := good_perm hK h1.symm
    simp only at this
    have e : (⟨g.held, H.length, false⟩ : Hold) = g := by rw [← h2, ← h3]
    rw [e] at this
    exact this
  | cons d ds ih =>
    intro g hn h
    cases d with
    | lock a =>
      have h' := ok_cons.1 h
      exact .lock h'.1 (ih _ hn h'.2)
    | page p undo => simp [need] at hn
    | rotate p => exact .rotate (ih _ hn h)
    | free p => exact .free (ih _ hn h)
    | drop p => exact .drop (ih _ hn h)
    | reset => exact .reset (ih _ hn h)
    | fin => exact .fin (ih _ hn h)

theorem events_length (es : List (Nat × Nat)) : ∀ done, 2 * done.length ≤ (Deed.events done es).length := by
  induction es with
  | nil =>
    intro done
    have : ∀ l : List Nat, (l.flatMap fun p => engine_unlock (accessOf p)).length = 2 * l.length := by
      intro l
      induction l with
      | nil => rfl
      | cons a l ih => rw [List.flatMap_cons, List.length_append, ih]; simp [engine_unlock]; omega
    simp [Deed.events, Deed.locks, this]
  | cons e es ih =>
    intro done
    obtain ⟨p, k⟩ := e
    rw [Deed.events, List.length_append]
    have := ih (p :: done)
    simp only [List.length_cons] at this
    omega

theorem locks_notFin (as : List Act) : ∀ d ∈ Deed.locks as, d.isFin = false := by
  intro d hd
  simp only [Deed.locks, List.mem_map] at hd
  obtain ⟨a, _, rfl⟩ := hd
  rfl

theorem events_notFin (es : List (Nat × Nat)) : ∀ done, ∀ d ∈ Deed.events done es, d.isFin = false := by
  induction es with
  | nil => intro done; exact locks_notFin _
  | cons e es ih =>
    intro done d hd
    obtain ⟨p, k⟩ := e
    rw [Deed.events] at hd
    rcases List.mem_append.1 hd with hd | hd
    · rcases List.mem_append.1 hd with hd | hd
      · exact locks_notFin _ d hd
      · rw [List.eq_of_mem_replicate hd]; rfl
    · exact ih _ d hd

theorem drop_fin (a : List Deed) (K : List Deed) (h : ∀ d ∈ a, d.isFin = false) :
    (a ++ .fin :: K).dropWhile (fun d => !d.isFin) = .fin :: K := by
  induction a with
  | nil => rfl
  | cons d a ih =>
    rw [List.cons_append, List.dropWhile_cons]
    rw [h d (by simp)]
    simp only [Bool.not_false, if_true]
    exact ih (fun d hd => h d (by simp [hd]))

/-- Some requests for memory before something that is fine. -/
theorem good_pages {g : Hold} {p : Nat} {undo : List Act} {ds K : List Deed} (hds : ∀ d ∈ ds, d.isFin = false)
    (hl : undo.length ≤ ds.length) (hu : Good false g (Deed.locks undo ++ .fin :: K)) (hd : Good false g (ds ++ .fin :: K)) :
    ∀ k, Good false g (List.replicate k (.page p undo) ++ (ds ++ .fin :: K)) := by
  intro k
  induction k with
  | zero => exact hd
  | succ k ih =>
    rw [List.replicate_succ, List.cons_append]
    have e : (List.replicate k (Deed.page p undo) ++ (ds ++ .fin :: K)).dropWhile (fun d => !d.isFin) = .fin :: K := by
      rw [← List.append_assoc]
      refine drop_fin _ _ ?_
      intro d hd
      rcases List.mem_append.1 hd with hd | hd
      · rw [List.eq_of_mem_replicate hd]; rfl
      · exact hds d hd
    refine .page ih (by rw [e]; exact hu) ?_
    rw [e]
    simp only [List.length_append, List.length_cons, List.length_replicate]
    omega

theorem good_unlocks {H : List Nat} {K : List Deed} (hK : Good false ⟨acc H, H.length, false⟩ K) (qs : List Nat)
    {h : List Nat} {sh : Nat} (hp : h.Perm (acc qs ++ acc H)) (hs : sh = H.length + qs.length) :
    Good false ⟨h, sh, false⟩ (Deed.locks (qs.flatMap fun q => engine_unlock (accessOf q)) ++ K) := by
  refine good_via hK _ _ (need_locks _) ?_
  rw [acts_locks, hs]
  exact C59.ok_unlocks (acc H) qs h H.length hp (C59.upwards_ok _ _ (closing_upwards H))

theorem good_events {H : List Nat} {K : List Deed} (hK : Good false ⟨acc H, H.length, false⟩ (.fin :: K)) :
    ∀ (es : List (Nat × Nat)) (done : List Nat), (es.map (·.1)).Pairwise (· ≤ ·) →
      (∀ h ∈ H, ∀ p ∈ es.map (·.1), h ≤ p) → (∀ h ∈ done, ∀ p ∈ es.map (·.1), h ≤ p) →
      Good false ⟨acc done ++ acc H, H.length + done.length, false⟩ (Deed.events done es ++ .fin :: K) := by
  intro es
  induction es with
  | nil =>
    intro done _ _ _
    refine good_unlocks hK done.reverse ?_ (by simp)
    exact ((List.reverse_perm done).map accessOf).symm.append_right _
  | cons e es ih =>
    intro done hs hH hd
    obtain ⟨p, k⟩ := e
    simp only [List.map_cons, List.pairwise_cons] at hs
    have h1 := ih (p :: done) hs.2 (fun h hh q hq => hH h hh q (by simp [List.mem_map] at hq ⊢; exact .inr hq))
      (fun h hh q hq => by
        rcases List.mem_cons.1 hh with rfl | hh
        · exact hs.1 q hq
        · exact hd h hh q (by simp [List.mem_map] at hq ⊢; exact .inr hq))
    rw [Deed.events]
    simp only [List.append_assoc]
    refine .lock ⟨rfl, fun e => by cases e⟩ (.lock ⟨rfl, Nat.succ_pos _, ?_⟩ ?_)
    · intro x hx
      simp only [Hold.after] at hx
      rcases List.mem_append.1 hx with hx | hx
      · exact C59.le_acc (fun y hy => hd y hy p (by simp)) x hx
      · exact C59.le_acc (fun y hy => hH y hy p (by simp)) x hx
    · have e1 : H.length + (p :: done).length = H.length + done.length + 1 := by simp; omega
      rw [e1] at h1
      refine good_pages (events_notFin es _) ?_ ?_ h1 k
      · have := events_length es (p :: done)
        have e2 : ∀ l : List Nat, (l.flatMap fun p => engine_unlock (accessOf p)).length = 2 * l.length := by
          intro l
          induction l with
          | nil => rfl
          | cons a l ih => rw [List.flatMap_cons, List.length_append, ih]; simp [engine_unlock]; omega
        rw [e2]
        exact this
      · exact good_unlocks hK (p :: done) (.refl _) (by simp; omega)

/-- Programs that go upwards are disciplined, whether there is memory or not. -/
theorem upwards_good : ∀ (prog : List Job) (held : List Nat), C59.Upwards held (prog.flatMap Job.calls) →
    Good false ⟨acc held, held.length, false⟩ (deeds prog) := by
  intro prog
  induction prog with
  | nil => intro held h; have : held = [] := h; subst this; exact .nil ⟨rfl, rfl, rfl⟩
  | cons j prog ih =>
    intro held h
    have e0 : deeds (j :: prog) = j.deeds ++ deeds prog := by simp [deeds]
    rw [e0]
    rw [List.flatMap_cons] at h
    -- one call, followed by closing what is open then
    have call : ∀ c held', (∀ r, C59.Upwards held' r → C59.Upwards held (c :: r)) →
        C59.Upwards held' (prog.flatMap Job.calls) → ∀ ds, need ds = 0 → acts ds = c.acts →
        Good false ⟨acc held, held.length, false⟩ (ds ++ deeds prog) := by
      intro c held' hc hr ds hn ha
      refine good_via (ih held' hr) ds _ hn ?_
      rw [ha]
      exact C59.upwards_ok (c :: held'.map .closeCursor) held (hc _ (closing_upwards held'))
    cases j with
    | write es =>
      have h' : (es.map (·.1)).Pairwise (· ≤ ·) ∧ (∀ x ∈ held, ∀ p ∈ es.map (·.1), x ≤ p) ∧
        C59.Upwards held (prog.flatMap Job.calls) := h
      have := good_events (K := deeds prog) (.fin (ih held h'.2.2)) es [] h'.1 h'.2.1 (fun _ hx => by cases hx)
      show Good false _ (Deed.events [] es ++ [Deed.fin] ++ deeds prog)
      rw [List.append_assoc]
      exact this
    | refresh p =>
      have h' : (∀ x ∈ held, x < p) ∧ C59.Upwards held (prog.flatMap Job.calls) := h
      exact call (.refresh p) held (fun r hr => ⟨h'.1, hr⟩) h'.2 _ rfl rfl
    | drop p =>
      have h' : (∀ x ∈ held, x < p) ∧ held = [] ∧ C59.Upwards held (prog.flatMap Job.calls) := h
      obtain ⟨h1, rfl, h2⟩ := h'
      refine good_via (ih [] h2) _ _ rfl ?_
      exact C59.upwards_ok [.file p, .change] [] ⟨nofun, rfl, rfl⟩
    | gc =>
      have h' : C59.Upwards held (prog.flatMap Job.calls) := h
      exact .reset (.fin (ih held h'))
    | other c =>
      have hn : need (Deed.other c.acts) = 0 := by
        unfold Deed.other; rw [need_append, need_locks]; rfl
      have ha : acts (Deed.other c.acts) = c.acts := by
        unfold Deed.other; rw [acts_append, acts_locks]; simp [acts]
      have h' : C59.Upwards held (c :: prog.flatMap Job.calls) := h
      show Good false _ (Deed.other c.acts ++ deeds prog)
      cases c with
      | write ps => exact call (.write ps) held (fun r hr => ⟨h'.1, h'.2.1, hr⟩) h'.2.2 _ hn ha
      | writeFailed ps => exact call (.writeFailed ps) held (fun r hr => ⟨h'.1, h'.2.1, hr⟩) h'.2.2 _ hn ha
      | openCursor p => exact call (.openCursor p) (p :: held) (fun r hr => ⟨h'.1, hr⟩) h'.2 _ hn ha
      | moveCursor p q => exact call (.moveCursor p q) (q :: held.erase p) (fun r hr => ⟨h'.1, h'.2.1, hr⟩) h'.2.2 _ hn ha
      | closeCursor p => exact call (.closeCursor p) (held.erase p) (fun r hr => ⟨h'.1, hr⟩) h'.2 _ hn ha
      | visit p => exact call (.visit p) held (fun r hr => ⟨h'.1, hr⟩) h'.2 _ hn ha
      | file p => exact call (.file p) held (fun r hr => ⟨h'.1, hr⟩) h'.2 _ hn ha
      | nothing p => exact call (.nothing p) held (fun r hr => ⟨h'.1, hr⟩) h'.2 _ hn ha
      | refresh p => exact call (.refresh p) held (fun r hr => ⟨h'.1, hr⟩) h'.2 _ hn ha
      | look => exact call (.look) held (fun r hr => hr) h' _ hn ha
      | showAll => exact call (.showAll) held (fun r hr => hr) h' _ hn ha
      | change => exact call (.change) held (fun r hr => ⟨h'.1, hr⟩) h'.2 _ hn ha

theorem rinv_start (c : Limits) (n : Nat) (prog : Nat → List Job) (h : ∀ t, t < n → Upwards (prog t)) :
    RInv false n (fun _ => C59.free) (start c prog) := by
  have hg : ∀ t, t < n → Good false C59.free (deeds (prog t)) := fun t ht => upwards_good (prog t) [] (h t ht)
  refine ⟨⟨C31.base_init n, ?_, ?_, ?_, fun t ht => good_ok (hg t ht), ?_, ?_, ?_, ?_, ?_, ?_⟩, hg, ?_, ?_, ?_⟩
  · intro p u h; simp [proj, start, Locks.init] at h
  · intro p u h; simp [proj, start, Locks.init] at h
  · intro p; simp [proj, start, Locks.init]
  · intro w p b h; simp [proj, start, Locks.init] at h
  · have : ∀ ts : List Nat, C59.total (fun _ => C59.free) ts = 0 := by
      intro ts
      induction ts with
      | nil => rfl
      | cons a ts ih => unfold C59.total at ih ⊢; simp only [List.map_cons, List.sum_cons]; rw [ih]; rfl
    rw [this]; rfl
  · intro t _; simp [proj, start, Rwlock.init, C59.free]
  · intro t h; simp [proj, start, Rwlock.init] at h
  · intro _; rfl
  · intro t h; simp [proj, start, Rwlock.init] at h
  · intro t x h; simp [start, Locks.init] at h
  · intro t h; simp [start, Rwlock.init] at h
  · intro t w h; simp [start] at h

theorem need_events (es : List (Nat × Nat)) : ∀ done, need (Deed.events done es) = pages es := by
  induction es with
  | nil => intro done; exact need_locks _
  | cons e es ih =>
    intro done
    obtain ⟨p, k⟩ := e
    rw [Deed.events, need_append, need_append, need_locks, ih]
    have : ∀ u k, need (List.replicate k (Deed.page p u)) = k := by
      intro u k
      induction k with
      | zero => rfl
      | succ k ih => rw [List.replicate_succ]; simp [need, ih]
    rw [this]
    simp [pages]

theorem need_deeds (prog : List Job) : need (deeds prog) = (prog.map Job.pages).sum := by
  induction prog with
  | nil => rfl
  | cons j prog ih =>
    have e0 : deeds (j :: prog) = j.deeds ++ deeds prog := by simp [deeds]
    rw [e0, need_append, ih, List.map_cons, List.sum_cons]
    congr 1
    cases j with
    | write es => show need (Deed.events [] es ++ [Deed.fin]) = pages es; rw [need_append, need_events]; rfl
    | refresh p => rfl
    | drop p => rfl
    | gc => rfl
    | other c => show need (Deed.locks c.acts ++ [Deed.fin]) = 0; rw [need_append, need_locks]; rfl

end Verif.C81
