import Verif.Spec.C46

/-! Helper lemmas for C46. -/
namespace Verif.C46

/-- Contexts of the codecs seen so far. -/
def Inv (s : State) (allZstd : Bool) : Prop :=
  s.mgr.lz4 = [] ∧ (allZstd = true → (∀ c ∈ s.mgr.zstd, c.codec = .zstd) ∧ ∀ c ∈ s.held, c.codec = .zstd)

theorem push_eq (m : CodecMgr) (c : Context) : m.push c = { m with zstd := m.zstd ++ [c] } := by
  unfold CodecMgr.push; split <;> rfl

theorem step_spec (s : State) (z : Bool) (h : Inv s z) (o : Op) (ho : o = .obtain .zstd → z = true) :
    Inv (step s o).1 (z && o != .obtain .lz4) ∧ ∀ p ∈ (step s o).2, p.2.codec = p.1 := by
  obtain ⟨h1, h2⟩ := h
  cases o with
  | obtain c =>
    cases c with
    | zstd =>
      have hz := ho rfl
      subst hz
      obtain ⟨h3, h4⟩ := h2 rfl
      cases hm : s.mgr.zstd with
      | nil =>
        refine ⟨⟨by simp [step, CodecMgr.pop, hm, h1], fun _ => ⟨?_, ?_⟩⟩, by simp [step, CodecMgr.pop, hm]⟩
        · simp [step, CodecMgr.pop, hm]
        · simpa [step, CodecMgr.pop, hm] using h4
      | cons c cs =>
        rw [hm] at h3
        refine ⟨⟨by simp [step, CodecMgr.pop, hm, h1], fun _ => ⟨?_, ?_⟩⟩, ?_⟩
        · simp only [step, CodecMgr.pop, hm]; intro x hx; exact h3 x (by simp [hx])
        · simp only [step, CodecMgr.pop, hm]
          intro x hx
          rcases List.mem_cons.1 hx with rfl | hx
          · exact h3 _ (by simp)
          · exact h4 x hx
        · simp only [step, CodecMgr.pop, hm, List.mem_singleton]
          rintro p rfl
          exact h3 c (by simp)
    | lz4 =>
      refine ⟨⟨by simp [step, CodecMgr.pop, h1], by simp⟩, by simp [step, CodecMgr.pop, h1]⟩
  | giveBack i =>
    cases hx : s.held[i]? with
    | none => simp only [step, hx]; exact ⟨⟨h1, by simpa using h2⟩, by simp⟩
    | some x =>
      simp only [step, hx, push_eq]
      refine ⟨⟨h1, fun hz => ?_⟩, by simp⟩
      have hz : z = true := by simpa using hz
      obtain ⟨h3, h4⟩ := h2 hz
      refine ⟨fun c hc => ?_, fun c hc => h4 c (List.mem_of_mem_eraseIdx hc)⟩
      rcases List.mem_append.1 hc with hc | hc
      · exact h3 c hc
      · rw [List.mem_singleton] at hc; subst hc
        exact h4 _ (List.mem_of_getElem? hx)

theorem run_spec : ∀ (ops : List Op) (s : State) (z : Bool), Inv s z →
    (z = false → Op.obtain .zstd ∉ ops) → Tame ops → ∀ p ∈ (run s ops).2, p.2.codec = p.1 := by
  intro ops
  induction ops with
  | nil => intro s z _ _ _ p hp; simp [run] at hp
  | cons o ops ih =>
    intro s z hi hz ht p hp
    have ho : o = .obtain .zstd → z = true := by
      rintro rfl
      cases z with
      | true => rfl
      | false => exact absurd (List.mem_cons_self ..) (hz rfl)
    obtain ⟨h1, h2⟩ := step_spec s z hi o ho
    simp only [run] at hp
    rcases List.mem_append.1 hp with hp | hp
    · exact h2 p hp
    · refine ih _ _ h1 ?_ ?_ p hp
      · intro hb hmem
        by_cases hl : o = .obtain .lz4
        · obtain ⟨pre, post, e⟩ := List.append_of_mem hmem
          exact ht (o :: pre) post (by rw [e, List.cons_append]) (by rw [hl]; exact List.mem_cons_self ..)
        · have : z = false := by
            cases z with
            | false => rfl
            | true => simp [hl] at hb
          exact hz this (List.mem_cons_of_mem _ hmem)
      · intro pre post e hmem
        exact ht (o :: pre) post (by rw [e, List.cons_append]) (List.mem_cons_of_mem _ hmem)

/-- Every context is in one place, and was created before. -/
def Once (s : State) : Prop :=
  (s.held.map (·.serial) ++ (s.mgr.zstd.map (·.serial) ++ s.mgr.lz4.map (·.serial))).Nodup ∧
  ∀ c, c ∈ s.held ∨ c ∈ s.mgr.zstd ∨ c ∈ s.mgr.lz4 → c.serial < s.mgr.created

theorem step_once (s : State) (o : Op) (h : Once s) : Once (step s o).1 := by
  obtain ⟨h1, h2⟩ := h
  have fresh : s.mgr.created ∉ s.held.map (·.serial) ++ (s.mgr.zstd.map (·.serial) ++ s.mgr.lz4.map (·.serial)) := by
    simp only [List.mem_append, List.mem_map, not_or, not_exists, not_and]
    refine ⟨fun c hc e => ?_, fun c hc e => ?_, fun c hc e => ?_⟩
    · have := h2 c (.inl hc); omega
    · have := h2 c (.inr (.inl hc)); omega
    · have := h2 c (.inr (.inr hc)); omega
  cases o with
  | obtain c =>
    cases c with
    | zstd =>
      cases hm : s.mgr.zstd with
      | nil =>
        rw [hm] at h1 h2 fresh
        simp only [step, CodecMgr.pop, hm]
        refine ⟨by simpa using ⟨by simpa using fresh, by simpa using h1⟩, fun c hc => ?_⟩
        simp only [List.mem_cons] at hc
        rcases hc with (rfl | hc) | hc | hc
        · simp
        · have := h2 c (.inl hc); dsimp only; omega
        · simp at hc
        · have := h2 c (.inr (.inr hc)); dsimp only; omega
      | cons x xs =>
        rw [hm] at h1 h2
        simp only [step, CodecMgr.pop, hm]
        refine ⟨?_, fun c hc => h2 c ?_⟩
        · refine List.Perm.nodup ?_ h1
          simp only [List.map_cons, List.cons_append]
          exact List.perm_middle
        · simp only [List.mem_cons] at hc ⊢
          rcases hc with (rfl | hc) | hc | hc <;> simp [*]
    | lz4 =>
      cases hm : s.mgr.lz4 with
      | nil =>
        rw [hm] at h1 h2 fresh
        simp only [step, CodecMgr.pop, hm]
        refine ⟨by simpa using ⟨by simpa using fresh, by simpa using h1⟩, fun c hc => ?_⟩
        simp only [List.mem_cons] at hc
        rcases hc with (rfl | hc) | hc | hc
        · simp
        · have := h2 c (.inl hc); dsimp only; omega
        · have := h2 c (.inr (.inl hc)); dsimp only; omega
        · simp at hc
      | cons x xs =>
        rw [hm] at h1 h2
        simp only [step, CodecMgr.pop, hm]
        refine ⟨?_, fun c hc => h2 c ?_⟩
        · refine List.Perm.nodup ?_ h1
          simp only [List.map_cons, List.cons_append, ← List.append_assoc]
          exact List.perm_middle
        · simp only [List.mem_cons] at hc ⊢
          rcases hc with (rfl | hc) | hc | hc <;> simp [*]
  | giveBack i =>
    cases hx : s.held[i]? with
    | none => simp only [step, hx]; exact ⟨h1, h2⟩
    | some x =>
      simp only [step, hx, push_eq]
      obtain ⟨hl, hg⟩ := List.getElem?_eq_some_iff.1 hx
      have hp : s.held.Perm (x :: s.held.eraseIdx i) := by
        rw [List.eraseIdx_eq_take_drop_succ]
        have h3 : s.held = s.held.take i ++ x :: s.held.drop (i + 1) := by
          rw [← hg, ← List.drop_eq_getElem_cons hl, List.take_append_drop]
        exact (List.Perm.of_eq h3).trans List.perm_middle
      refine ⟨?_, fun c hc => h2 c ?_⟩
      · refine List.Perm.nodup ?_ h1
        refine ((hp.map _).append_right _).trans ?_
        simp only [List.map_cons, List.map_append, List.map_nil, List.cons_append, List.append_assoc,
          List.nil_append]
        refine List.perm_middle.symm.trans ?_
        refine List.Perm.append_left _ ?_
        exact List.perm_middle.symm
      · simp only [List.mem_append, List.mem_singleton] at hc
        rcases hc with hc | (hc | rfl) | hc
        · exact .inl (List.mem_of_mem_eraseIdx hc)
        · exact .inr (.inl hc)
        · exact .inl (List.mem_of_getElem? hx)
        · exact .inr (.inr hc)

theorem run_once : ∀ (ops : List Op) (s : State), Once s → Once (run s ops).1
  | [], _, h => h
  | o :: ops, s, h => run_once ops (step s o).1 (step_once s o h)

end Verif.C46
