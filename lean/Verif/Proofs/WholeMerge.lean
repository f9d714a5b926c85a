import Verif.Proofs.WholeRel
import Verif.Props.C14
import Verif.Props.C15

/-! Helper lemmas: the merge of the whole database. -/
namespace Verif.Whole
open Rb Spec Io Mapping Cursor
open Dur (partOf tget tset Key partOr)
open C84 (Limits)

theorem table_get (es : List Event) (k : Key) : C14.find (C07.table es) k = Dur.lastOf es k := by
  have h := lastOf_eq es ⟨k.1, 0, k.2, []⟩
  have e : (⟨k.1, 0, k.2, []⟩ : Event).pair = k := rfl
  rw [e] at h
  rw [← h, ← C07.lookup_table, ← find_pair, e]
  rfl

/-- What the file of a partition gives to a merge. -/
theorem file_src {env : Env} {E : List Event} {n p : Nat} {f : Option PartFile} {a : Option Dur.PFile}
    (h : OpenRel env E n p f a) (act prev : Memtable) :
    ∃ (F : List Event) (fi : PartIterator) (b : Bool),
      PartIterator.open_ env.cs env.mc (originOf ⟨act, prev, f⟩) none = .ok (fi, b) ∧
      C13.Yields (fns env.cs env.mc) (.file fi) F ∧ Ascending F ∧ (originOf ⟨act, prev, f⟩).index.events = F.length ∧
      (∀ e ∈ F, e ∈ E ∧ WF e ∧ partOf env.iv e.id = p) ∧ (∀ k : Key, Dur.fget a k = C14.find F k) ∧
      FileScans env.cs env.mc f none F := by
  cases f with
  | none =>
    cases a with
    | some a => exact h.elim
    | none =>
      have hr : Rep env.cs (⟨[], {}, []⟩ : PartFile) [] := ⟨rfl, by simp⟩
      obtain ⟨it, h1, h2⟩ := scan_ok (mc := env.mc) hr
      exact ⟨[], it, false, h1, file_yields env.cs env.mc h2, .nil, rfl, by simp, fun k => rfl, rfl⟩
  | some f =>
    cases a with
    | none => exact h.elim
    | some a =>
      have h : FileRel env E n p f a := h
      obtain ⟨ms, m1, m2, m3, m4, m5⟩ := h.ex
      obtain ⟨rs, k1, k2, _⟩ := file_rep m1 (fun m hm => (m2 m hm).2.1) m3
      obtain ⟨it, k3, k4⟩ := scan_ok (mc := env.mc) k1
      rw [k2] at k4
      refine ⟨ms.map (fun m : EventMem => m.event), it, false, k3, file_yields env.cs env.mc k4, m3, ?_, ?_, fun k => m5 k, it, false, k3, k4⟩
      · show f.index.events = _
        rw [m4, List.length_map]
      intro e he
      obtain ⟨m, hm, rfl⟩ := List.mem_map.1 he
      exact m2 m hm

/-- The new file of a refresh. -/
theorem merge_file {env : Env} {E A : List Event} {n : Nat} (hl : Limits env E) {s : Slice CPart} {x : Dur.Part}
    (hp : MemRel env.iv s.min A s.val.prev x.prev) (hf : OpenRel env E n s.min s.val.file x.file)
    (hmax : s.max = s.min + env.iv - 1) (h31 : s.min + env.iv ≤ 2147483648)
    (hA : ∀ e ∈ A, WF e) (hs : A.Sublist E) (hn : n + 1 < 4294967296)
    (hl1 : x.prev.lsnMax < 18446744073709551616) (hl2 : Dur.lsnOf x.file < 18446744073709551616)
    {pad : Event → Bytes} {tc tr : Nat} (hpad : ∀ e, e.key.length ≤ (pad e).length)
    (htc : tc < 18446744073709551616) (htr : tr < 18446744073709551616) :
    ∃ f, mergeFile env s pad tc tr = .ok f ∧ FileRel env E (n + 1) s.min f (Dur.mergeFile x) := by
  obtain ⟨es, r1, r2, _, r4, r5⟩ := hp
  obtain ⟨F, fi, b, f1, f2, f3, f4, f5, f6, -⟩ := file_src hf s.val.act s.val.prev
  have hsc := Memtable.scan_all env.mc r1.inv
  unfold Memtable.scan at hsc
  rw [Res.bind_eq_ok] at hsc
  obtain ⟨⟨mi, b'⟩, i1, i2⟩ := hsc
  have hesE : ∀ e ∈ C07.table es, e ∈ E ∧ WF e ∧ partOf env.iv e.id = s.min := by
    intro e he
    have := List.mem_filter.1 (r5.subset (mem_table he))
    exact ⟨hs.subset this.1, hA e this.1, by simpa using this.2⟩
  have hwin : ∀ e, e ∈ E → C13.Window 0 e := fun e he => by
    have := (limits_ids hl he).2
    unfold C13.Window; omega
  obtain ⟨out, o1, o2, o3, o4⟩ := C14.C14_new_file_partial env.mc (fns env.cs env.mc) (.mem s.val.prev mi) (.file fi) 0
    (C07.table es) F ⟨C07.table_ascending es, fun e he => hwin e (hesE e he).1⟩ ⟨f3, fun e he => hwin e (f5 e he).1⟩
    (mem_yields env.cs env.mc s.val.prev _ mi _ i2) f2 (s.val.prev.count + (originOf s.val).index.events)
    (by rw [r1.inv.cnt, show originOf s.val = originOf ⟨s.val.act, s.val.prev, s.val.file⟩ from rfl, f4]; exact Nat.le_refl _)
  have hout : ∀ e ∈ out, e ∈ E ∧ WF e ∧ partOf env.iv e.id = s.min := by
    intro e he
    have h1 := C14.find_eq_some o2 he
    rw [o4] at h1
    have h2 := (Option.filter_eq_some_iff.1 h1).1
    rcases Option.or_eq_some_iff.1 h2 with h3 | ⟨_, h3⟩
    · exact hesE e (List.mem_of_find?_eq_some h3)
    · exact f5 e (List.mem_of_find?_eq_some h3)
  have hms : (out.map fun e => (⟨e, pad e⟩ : EventMem)).map (·.event) = out := by
    rw [List.map_map]
    exact List.map_id _
  have hmm : ∀ m ∈ out.map (fun e => (⟨e, pad e⟩ : EventMem)),
      (m.event ∈ E ∧ WF m.event ∧ partOf env.iv m.event.id = s.min) ∧ m.event.key.length ≤ m.slack.length := by
    intro m hm
    obtain ⟨e, he, rfl⟩ := List.mem_map.1 hm
    exact ⟨hout e he, hpad e⟩
  obtain ⟨t1, t2, t3⟩ := hl.files (s.min / env.iv) (out.map fun e => ⟨e, pad e⟩) (by rw [hms]; exact o2) (by
    intro m hm
    obtain ⟨⟨a1, a2, a3⟩, a4⟩ := hmm m hm
    refine ⟨a1, ?_, a4⟩
    rw [← a3, partOf_mul, Nat.mul_div_cancel_left _ hl.interval.1])
  obtain ⟨w, hw⟩ := write_safe (cs := env.cs) (s := env.src) (stopArg s tc tr) hl.encryption
    (fun m hm => ⟨(hmm m hm).1.2.1, (hmm m hm).2⟩) t2 (Nat.le_trans (C15.rawSize_le _) t1)
  obtain ⟨t4, t5⟩ := t3 _ _ hw
  have hlsn : (stopArg s tc tr).lsn = (Dur.mergeFile x).lsn := by
    show (match s.val.file with
      | some f => if f.index.lsn > s.val.prev.lsnMax then f.index.lsn else s.val.prev.lsnMax
      | none => s.val.prev.lsnMax) = _
    unfold Dur.mergeFile
    cases hsf : s.val.file <;> cases hxf : x.file <;> rw [hsf, hxf] at hf
    · exact r4
    · exact hf.elim
    · exact hf.elim
    · dsimp only
      rw [r4, FileRel.lsn hf]
  have href : (stopArg s tc tr).refreshes ≤ n + 1 := by
    show (match s.val.file with
      | some f => 1 + f.index.refreshes
      | none => 1) ≤ _
    cases hsf : s.val.file with
    | none => dsimp only; omega
    | some f =>
      rw [hsf] at hf
      cases hxf : x.file <;> rw [hxf] at hf
      · exact hf.elim
      · have := FileRel.refreshes hf
        dsimp only; omega
  have hlt : (Dur.mergeFile x).lsn < 18446744073709551616 := by
    rw [Dur.merge_lsn]
    unfold Dur.top
    omega
  have harg : ArgWF env.src (stopArg s tc tr) := by
    refine ⟨?_, ?_, by omega, htc, htr, by omega, hl.codes.1, hl.codes.2⟩
    · show s.min < _
      omega
    · show s.max < _
      omega
  obtain ⟨_, p, _, _, h3, h4, _, h6, _, ⟨h7, _⟩, ⟨g1, g2, g3, g4, _, _, g7⟩, _⟩ := written_open hw
    (fun m hm => (hmm m hm).1.2.1) t4 harg t5.1 t5.2
  have hpf : p = ⟨w.file, w.index_writer.index, w.index_writer.data⟩ := by
    obtain ⟨a, b, c⟩ := p
    simp only [PartFile.mk.injEq]
    exact ⟨h4, h6, h7⟩
  refine ⟨p, ?_, ?_⟩
  · unfold mergeFile
    rw [i1]
    simp only [Res.bind_ok]
    rw [show originOf s.val = originOf ⟨s.val.act, s.val.prev, s.val.file⟩ from rfl, f1]
    simp only [Res.bind_ok]
    rw [show originOf ⟨s.val.act, s.val.prev, s.val.file⟩ = originOf s.val from rfl, o1]
    simp only [Res.bind_ok]
    rw [hw]
    simp only [Res.bind_ok]
    rw [hpf]
  · refine ⟨⟨out.map (fun e => ⟨e, pad e⟩), ⟨env.src, _, w, hw, h3, harg, t4, t5⟩, fun m hm => (hmm m hm).1,
      by rw [hms]; exact o2, g7, ?_⟩, by rw [h4]; exact h3, by rw [g1, hlsn], g2, ?_, by rw [g4]; exact href⟩
    · intro k
      rw [hms, Dur.merge_get, r2, f6, ← table_get]
      exact (o4 k).symm
    · rw [g3]
      exact hmax

end Verif.Whole
