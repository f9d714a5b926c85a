import Verif.Proofs.PartFile

namespace Verif.Io

/-- The writer after the last region was closed. -/
structure Closed (comp : Option Comp) (encr : Option Encr) (s : WriterSource) (w : Writer) (es : List Ent) : Prop where
  hcomp : w.comp = comp
  hencr : w.encr = encr
  source : w.source = s
  file : w.file = fileOf es
  data : w.index_writer.data = (irsFrom s.crc 0 es).flatMap IndexRegion.bytes
  regions : w.index_writer.index.regions = es.length
  size : w.index_writer.index.size = 52 * es.length
  size_regions : w.index_writer.index.size_regions = (fileOf es).length
  events : w.index_writer.index.events = (es.flatMap (·.ms)).length
  size_ro : w.index_writer.index.size_regions_origin = (es.map fun e => rawSize e.ms).sum
  dsmall : 52 * es.length ≤ 536870912
  opens : ∀ e ∈ es, (CompFits comp (rawOf e.ms) → Opens comp encr e.stored (rawOf e.ms) ∧ e.stored ≠ []) ∧ e.ms ≠ []
    ∧ rawSize e.ms ≤ 1073741824
  complete : Complete (limitOf s) (es.map (·.ms))

theorem inv_close {comp : Option Comp} {encr : Option Encr} {s : WriterSource} {w w' : Writer} {es : List Ent}
    {cur : List EventMem} (h : Inv comp encr s w es cur) (hwf : ∀ m ∈ cur, WF m.event) (hs : w.stop_region = .ok w') :
    ∃ es', Closed comp encr s w' es' ∧ es'.flatMap (·.ms) = es.flatMap (·.ms) ++ cur := by
  rcases h.hcur with ⟨hst, hh, hne⟩ | ⟨hst, hc, hes⟩
  · obtain ⟨b, g1, g2, g3, g4, g5, g6, g7, g8, g9, g10, g12, g13, g14, g11⟩ := inv_stop_region h hwf hne hs
    refine ⟨es ++ [⟨cur, b⟩], ?_, by simp⟩
    exact { hcomp := g1, hencr := g2, source := g3, file := g6, data := g7
            regions := by rw [List.length_append]; exact g8
            size := by rw [List.length_append]; exact g9
            size_regions := g10, events := g12, size_ro := g13
            dsmall := by rw [List.length_append]; exact g14
            opens := by
              intro e he
              rcases List.mem_append.1 he with he | he
              · exact h.opens e he
              · simp only [List.mem_singleton] at he
                subst he
                exact ⟨g11, hne, h.small⟩
            complete := .inr ⟨es.map (·.ms), cur, by simp, hne, h.divided⟩ }
  · subst hc hes
    unfold Writer.stop_region at hs
    rw [if_pos (by simp [hst])] at hs
    have hs := (Res.ok.inj hs).symm
    subst hs
    refine ⟨[], ?_, by simp⟩
    exact { hcomp := h.hcomp, hencr := h.hencr, source := h.source, file := h.file, data := h.data
            regions := h.regions, size := h.size, size_regions := h.size_regions, events := h.events
            size_ro := h.size_ro, dsmall := h.dsmall, opens := h.opens, complete := .inl rfl }

theorem mem_infix {es : List Ent} {e : Ent} (h : e ∈ es) : e.ms <:+: es.flatMap (·.ms) := by
  obtain ⟨a, b, rfl⟩ := List.append_of_mem h
  exact ⟨a.flatMap (·.ms), b.flatMap (·.ms), by simp⟩

theorem fileOf_split {es : List Ent} {i : Nat} {e : Ent} (h : es[i]? = some e) :
    fileOf es = fileOf (es.take i) ++ e.stored ++ fileOf (es.drop (i + 1)) := by
  obtain ⟨hlt, he⟩ := List.getElem?_eq_some_iff.1 h
  conv => lhs; rw [← List.take_append_drop i es, List.drop_eq_getElem_cons hlt, he]
  simp [fileOf]

theorem lastId_getLast {ms : List EventMem} (h : ms ≠ []) :
    ∃ e, (ms.map (·.event)).getLast? = some e ∧ lastId ms = e.id := by
  obtain ⟨a, m, rfl⟩ := exists_last h
  exact ⟨m.event, by simp, lastId_snoc a m⟩

theorem firstId_head {ms : List EventMem} (h : ms ≠ []) :
    ∃ e, (ms.map (·.event)).head? = some e ∧ firstId ms = e.id := by
  cases ms with
  | nil => exact absurd rfl h
  | cons m ms => exact ⟨m.event, rfl, rfl⟩

theorem events_le (es : List Ent) : (es.flatMap (·.ms)).length ≤ (es.map fun e => rawSize e.ms).sum := by
  induction es with
  | nil => simp
  | cons e es ih =>
    simp only [List.flatMap_cons, List.length_append, List.map_cons, List.sum_cons]
    have : e.ms.length ≤ rawSize e.ms := by unfold rawSize; omega
    omega

/-- The codec ids in the header lead back to the codecs used. -/
theorem resolve {α : Type} (f : Nat → Option α) (k : Nat) {o : Option α} (h : (if k = 0 then none else f k) = o) :
    (if (if o.isSome then k else 0) = 0 then none else f (if o.isSome then k else 0)) = o ∧
      (o = none → (if o.isSome then k else 0) = 0) := by
  cases o with
  | none => simp
  | some x => simpa using h

/-- A file ends with the index data `out` and the header `i`. -/
structure Footer (file pre out : Bytes) (i : Index) : Prop where
  file : file = pre ++ (out ++ i.bytes)
  wf : IndexWF i
  magic : i.magic = 0x20849615
  version : i.version = 0
  crc : i.crc = (Crc.crc32_hw 0#32 i.tailBytes).toNat
  crc_data : i.crc_data = (Crc.crc32_hw 0#32 out).toNat
  size : i.size = out.length
  size_regions : i.size_regions = pre.length
  size_total : i.size_total = pre.length + out.length + 130

/-- Opening a file that was written. -/
theorem written_open {cs : Codecs} {s : WriterSource} {a : IndexWriter.StopArg} {ms : List EventMem} {w : Writer}
    (h : writeFile cs s a ms = .ok w) (hwf : ∀ m ∈ ms, WF m.event) (hl : w.file.length < 4294967296) (ha : ArgWF s a)
    (hf : ∀ r, r <:+: ms → r ≠ [] → CompFits (if s.compression = 0 then none else cs.comp s.compression) (rawOf r))
    (hfi : CompFits (if s.compression = 0 then none else cs.comp s.compression) w.index_writer.data) :
    ∃ es p, es.flatMap (·.ms) = ms ∧ Complete (limitOf s) (es.map (·.ms)) ∧ part_open cs w.file = .ok p ∧
      p.file = w.file ∧ p.index.regions = es.length ∧ p.index = w.index_writer.index ∧
      p.index_data = (irsFrom s.crc 0 es).flatMap IndexRegion.bytes ∧
      (p.index_data = w.index_writer.data ∧ ∃ out, Footer w.file (fileOf es) out p.index) ∧
      (p.index.lsn = a.lsn ∧ p.index.id_min = a.id_min ∧ p.index.id_max = a.id_max ∧
        p.index.refreshes = a.refreshes ∧ p.index.time_create = a.time_create ∧
        p.index.time_refresh = a.time_refresh ∧ p.index.events = ms.length) ∧
      Rep cs p (es.map fun e => e.ms.map (·.event)) := by
  obtain ⟨w1, h1, h2⟩ := Res.bind_eq_ok.1 h
  obtain ⟨es1, cur1, g1, g2⟩ := inv_addAll (inv_start cs s) (by simpa using hwf) h1
  simp only [List.flatMap_nil, List.nil_append] at g2
  generalize hcomp : (if s.compression = 0 then none else cs.comp s.compression) = comp at *
  generalize hencr : (if s.encryption = 0 then none else cs.encr s.encryption) = encr at *
  unfold Writer.stop at h2
  rw [if_neg (by simp [g1.active])] at h2
  obtain ⟨w2, h3, h4⟩ := Res.bind_eq_ok.1 h2
  obtain ⟨iw, h5, h6⟩ := Res.bind_eq_ok.1 h4
  obtain ⟨es, c, hes⟩ := inv_close g1 (fun m hm => hwf m (by rw [← g2]; simp [hm])) h3
  rw [g2] at hes
  rw [c.hcomp, c.hencr] at h5 h6
  have h6 := (Res.ok.inj h6).symm
  have hdl : w2.index_writer.data.length = 52 * es.length := by rw [c.data, irs_length, irsFrom_length]
  have st := index_stop_ok h5 (by rw [c.size, hdl])
  have hiw : w.index_writer = iw := by rw [h6]
  have hwfile : w.file = fileOf es ++ (iw.out comp encr ++ iw.index.bytes) := by rw [h6, c.file]
  rw [hiw, st.data] at hfi
  obtain ⟨a1, a2, a3, a4, a5, a6, a7, a8⟩ := ha
  have hopens : ∀ e ∈ es, Opens comp encr e.stored (rawOf e.ms) ∧ e.stored ≠ [] := by
    intro e he
    obtain ⟨o1, o2, _⟩ := c.opens e he
    exact o1 (hf _ (hes ▸ mem_infix he) o2)
  have hge := fileOf_ge fun e he => (hopens e he).2
  have hfl : w.file.length = (fileOf es).length + (iw.out comp encr).length + 130 := by
    rw [hwfile, List.length_append, List.length_append, index_length]; omega
  have hsum : (es.map fun e => rawSize e.ms).sum ≤ 1073741824 * es.length := by
    have := sum_le (l := es.map fun e => rawSize e.ms) (b := 1073741824) (by
      intro x hx
      obtain ⟨e, he, rfl⟩ := List.mem_map.1 hx
      exact (c.opens e he).2.2)
    rwa [List.length_map] at this
  have hevs := events_le es
  have hds := c.dsmall
  have hiwf : IndexWF iw.index := by
    refine ⟨⟨?_, ?_, ?_, ?_⟩, ⟨?_, ?_, ?_, ?_⟩, ⟨?_, ?_, ?_, ?_⟩, ⟨?_, ?_, ?_, ?_⟩, ⟨?_, ?_, ?_, ?_⟩⟩
    · rw [st.crc]; exact (Crc.crc32_hw 0#32 iw.index.tailBytes).isLt
    · rw [st.crc_data]; exact (Crc.crc32_hw 0#32 (iw.out comp encr)).isLt
    · rw [st.magic]; decide
    · rw [st.version]; decide
    · rw [st.id_min]; exact a1
    · rw [st.id_max]; exact a2
    · rw [st.size]; omega
    · rw [st.size_origin, hdl]; omega
    · rw [st.size_regions, c.size_regions]; omega
    · rw [st.size_ro, c.size_ro]; omega
    · rw [st.size_total, c.size_regions]; omega
    · rw [st.size_to, c.size_ro, hdl]; omega
    · rw [st.regions, c.regions]; omega
    · rw [st.events, c.events]; omega
    · rw [st.time_create]; exact a4
    · rw [st.time_refresh]; exact a5
    · rw [st.refreshes]; exact a3
    · rw [st.lsn]; exact a6
    · rw [st.compression, c.source]; split <;> omega
    · rw [st.encryption, c.source]; split <;> omega
  have hrc := resolve cs.comp s.compression hcomp
  have hre := resolve cs.encr s.encryption hencr
  have hcf : iw.index.compression = if comp.isSome then s.compression else 0 := by rw [st.compression, c.source]
  have hef : iw.index.encryption = if encr.isSome then s.encryption else 0 := by rw [st.encryption, c.source]
  rw [← hcf] at hrc
  rw [← hef] at hre
  have hopen : index_open false w.file = .ok iw.index := by
    rw [hwfile, ← List.append_assoc]
    apply index_open_ok hiwf st.magic st.version st.crc
    rw [st.size_total, c.size_regions, List.length_append]
  have hread : index_read cs w.file iw.index = .ok w2.index_writer.data := by
    rw [hwfile]
    exact index_read_ok st.size st.crc_data (st.opens hfi) st.size_origin hre.1 hre.2 hrc.1 hrc.2
      fun h0 => st.empty h0 hfi
  refine ⟨es, ⟨w.file, iw.index, w2.index_writer.data⟩, hes, c.complete, ?_, rfl, ?_, hiw.symm ▸ rfl, c.data,
    ⟨(hiw.symm ▸ st.data).symm, _, ⟨hwfile, hiwf, st.magic, st.version, st.crc, st.crc_data, st.size,
      st.size_regions.trans c.size_regions, by rw [st.size_total, c.size_regions]⟩⟩, ⟨st.lsn, st.id_min, st.id_max, st.refreshes, st.time_create, st.time_refresh, ?_⟩, ?_⟩
  · unfold part_open
    rw [hopen]
    simp only [Res.bind_ok]
    rw [hread]
    rfl
  · rw [st.regions, c.regions]
  · rw [st.events, c.events, hes]
  · refine ⟨by rw [List.length_map]; exact st.regions.trans c.regions, ?_⟩
    intro i r hr
    rw [List.getElem?_map] at hr
    obtain ⟨e, he, rfl⟩ := Option.map_eq_some_iff.1 hr
    have hmem : e ∈ es := List.mem_of_getElem? he
    obtain ⟨_, o2, o3⟩ := c.opens e hmem
    obtain ⟨p1, p2⟩ := hopens e hmem
    have hsplit := fileOf_split he
    have hlen := congrArg List.length hsplit
    simp only [List.length_append] at hlen
    have hir := irsFrom_get (crc := s.crc) (off := 0) he
    rw [Nat.zero_add] at hir
    have hmwf : ∀ m ∈ e.ms, WF m.event := fun m hm => hwf m (by
      rw [← hes]; exact List.mem_flatMap.2 ⟨e, hmem, hm⟩)
    have hirwf : IRWF (irOf s.crc (fileOf (es.take i)).length e) := by
      refine ⟨Nat.mod_lt _ (by decide), ?_, ?_, ?_, ?_, ?_, ?_⟩
      · unfold irOf
        dsimp only
        split
        · exact (Crc.crc32_hw 0#32 e.stored).isLt
        · decide
      · obtain ⟨x, hx, hid⟩ := firstId_head o2
        show firstId e.ms < _
        rw [hid]
        obtain ⟨m, hm, rfl⟩ := List.mem_map.1 (List.mem_of_mem_head? hx)
        exact (hmwf m hm).1
      · obtain ⟨x, hx, hid⟩ := lastId_getLast o2
        show lastId e.ms < _
        rw [hid]
        obtain ⟨m, hm, rfl⟩ := List.mem_map.1 (List.mem_of_getLast? hx)
        exact (hmwf m hm).1
      · show e.stored.length < _
        omega
      · show rawSize e.ms < _
        omega
      · show e.ms.length < _
        unfold rawSize at o3
        omega
    refine ⟨by simpa using o2, irOf s.crc (fileOf (es.take i)).length e, ⟨rawOf e.ms, e.ms.length⟩, ?_, ?_, ?_, ?_, ?_, ?_, ?_⟩
    · rw [c.data]
      exact index_get (by rw [irsFrom_length]; exact st.regions.trans c.regions) hir hirwf
    · exact firstId_head o2
    · exact lastId_getLast o2
    · exact (List.length_map _).symm
    · have hfile : w.file = fileOf (es.take i) ++ e.stored ++
          (fileOf (es.drop (i + 1)) ++ (iw.out comp encr ++ iw.index.bytes)) := by
        rw [hwfile, hsplit]; simp only [List.append_assoc]
      refine reader_ok hfile p2 rfl ?_ rfl rfl (by omega) hre.1 hrc.1 p1
      show (fileOf (es.take i)).length % 4294967296 = _
      omega
    · simp
    · intro j x hx
      rw [List.getElem?_map] at hx
      obtain ⟨m, hm, rfl⟩ := Option.map_eq_some_iff.1 hx
      exact get_raw hmwf (by omega) hm

end Verif.Io
