import Verif.Proofs.WholeScan

/-! Helper lemmas: storages without compression and encryption. -/
namespace Verif.Whole
open Spec Io
open C84 (FilesFit)

/-- The sizes of the regions. -/
theorem regions_le (es : List Ent) (h : ∀ e ∈ es, e.stored.length = rawSize e.ms ∧ e.ms ≠ []) :
    (fileOf es).length ≤ 24 * (es.flatMap (·.ms)).length + C15.total (es.flatMap (·.ms)) := by
  induction es with
  | nil => simp [fileOf]
  | cons e es ih =>
    obtain ⟨h1, h2⟩ := h e (by simp)
    have h3 := ih fun x hx => h x (by simp [hx])
    have h4 := C15.rawSize_le e.ms
    have h5 : e.ms.length ≠ 0 := by simpa using h2
    unfold fileOf C15.total at *
    simp only [List.flatMap_cons, List.length_append, List.map_append, List.sum_append] at h3 ⊢
    omega

/-- A file without compression and encryption stays small. -/
theorem plain_length {cs : Codecs} {s : WriterSource} {a : IndexWriter.StopArg} {ms : List EventMem} {w : Writer}
    (h : writeFile cs s a ms = .ok w) (hc : s.compression = 0) (he : s.encryption = 0) (hwf : ∀ m ∈ ms, WF m.event)
    (ht : C15.total ms ≤ 536870912) (hn : 52 * ms.length ≤ 536870912) : w.file.length < 4294967296 := by
  obtain ⟨w1, h1, h2⟩ := Res.bind_eq_ok.1 h
  obtain ⟨es1, cur1, g1, g2⟩ := inv_addAll (inv_start cs s) (by simpa using hwf) h1
  simp only [List.flatMap_nil, List.nil_append] at g2
  rw [if_pos hc, if_pos he] at g1
  unfold Writer.stop at h2
  rw [if_neg (by simp [g1.active])] at h2
  obtain ⟨w2, h3, h4⟩ := Res.bind_eq_ok.1 h2
  obtain ⟨iw, h5, h6⟩ := Res.bind_eq_ok.1 h4
  obtain ⟨es, c, hes⟩ := inv_close g1 (fun m hm => hwf m (by rw [← g2]; simp [hm])) h3
  rw [g2] at hes
  rw [c.hcomp, c.hencr] at h5 h6
  have h6 := (Res.ok.inj h6).symm
  have hdl : w2.index_writer.data.length = 52 * es.length := by rw [c.data, irs_length, irsFrom_length]
  have st := index_stop_ok h5 (by rw [c.size, hdl])
  have hout : (iw.out none none).length = 52 * es.length := by
    show iw.data.length = _
    rw [st.data, hdl]
  have hfl : w.file.length = (fileOf es).length + 52 * es.length + 130 := by
    rw [h6]
    dsimp only
    rw [c.file, List.length_append, List.length_append, index_length, hout]
    omega
  have hr := regions_le es (by
    intro e he
    obtain ⟨o1, o2, _⟩ := c.opens e he
    refine ⟨?_, o2⟩
    have : e.stored = rawOf e.ms := Res.ok.inj (o1 trivial).1
    rw [this]
    exact rawOf_length _)
  rw [hes] at hr
  have := length_flat fun e he => (c.opens e he).2.1
  rw [hes] at this
  omega

theorem nodup_sum {α : Type} (f : α → Nat) : ∀ (l' l : List α), l'.Nodup → (∀ x ∈ l', x ∈ l) → (l'.map f).sum ≤ (l.map f).sum := by
  intro l'
  induction l' with
  | nil => intro l _ _; exact Nat.zero_le _
  | cons x l' ih =>
    intro l hn hs
    obtain ⟨l1, l2, rfl⟩ := List.append_of_mem (hs x (by simp))
    rw [List.nodup_cons] at hn
    have := ih (l1 ++ l2) hn.2 (by
      intro y hy
      have h1 := hs y (by simp [hy])
      simp only [List.mem_append, List.mem_cons] at h1 ⊢
      rcases h1 with h1 | rfl | h1
      · exact .inl h1
      · exact absurd hy hn.1
      · exact .inr h1)
    simp only [List.map_append, List.sum_append, List.map_cons, List.sum_cons] at this ⊢
    omega

/-- The files of such a storage fit if the events do. -/
theorem plain_fits {env : Env} {E : List Event} (hc : env.src.compression = 0) (he : env.src.encryption = 0)
    (hwf : ∀ e ∈ E, WF e)
    (ht : 24 + (E.map fun e => 18 + 2 * e.key.length + e.value.length).sum ≤ 536870912)
    (hn : 52 * E.length ≤ 536870912) : FilesFit env E := by
  intro q ms ha hm
  have hnd : (ms.map (·.event)).Nodup := by
    refine ha.imp fun {a b} h e => ?_
    subst e
    have := evCmp_eq.2 (rfl : a.pair = a.pair)
    omega
  have hin : ∀ e ∈ ms.map (·.event), e ∈ E := by
    intro e he
    obtain ⟨m, h1, rfl⟩ := List.mem_map.1 he
    exact (hm m h1).1
  have h1 : C15.total ms ≤ 536870912 := by
    have := nodup_sum (fun e : Event => 18 + 2 * e.key.length + e.value.length) _ E hnd hin
    rw [List.map_map] at this
    unfold C15.total
    have e : (ms.map fun m => 18 + 2 * m.event.key.length + m.event.value.length) =
      ms.map ((fun e : Event => 18 + 2 * e.key.length + e.value.length) ∘ fun m => m.event) := rfl
    rw [e]
    omega
  have h2 : 52 * ms.length ≤ 536870912 := by
    have := nodup_len _ E hnd hin
    rw [List.length_map] at this
    omega
  refine ⟨h1, h2, fun a f hf => ⟨plain_length hf hc he (fun m h => hwf _ (hm m h).1) h1 h2, ?_⟩⟩
  unfold C15.NoGrowth
  rw [if_pos hc]
  exact ⟨fun _ _ _ => trivial, trivial⟩

end Verif.Whole
