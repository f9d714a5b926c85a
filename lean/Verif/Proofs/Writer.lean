import Verif.Model.Writer
import Verif.Proofs.Region

namespace Verif.Io

theorem add_size {w w' : RegionWriter} {ms : List EventMem} {m : EventMem} (h : Holds w ms) (ha : w.add m = .ok w') :
    rawSize (ms ++ [m]) ≤ 1073741824 := by
  have h' := holds_add h ha
  have hm := h.metaLen
  have hd := h'.data
  unfold RegionWriter.add at ha
  split at ha
  · simp at ha
  · rename_i h1
    obtain ⟨bs, h1, h2⟩ := Res.bind_eq_ok.1 ha
    obtain ⟨d, h3, h4⟩ := Res.bind_eq_ok.1 h2
    unfold bufWrite at h3
    split at h3
    · simp at h3
    · have h3 := (Res.ok.inj h3).symm
      have h4 := (Res.ok.inj h4).symm
      subst h3 h4
      dsimp only at hd
      have hl := congrArg List.length hd
      simp only [List.length_append] at hl
      unfold bufLimit at *
      unfold rawSize
      simp only [List.length_append, List.length_singleton]
      omega

/-- A stored region: its events and its bytes in the file. -/
structure Ent where
  ms : List EventMem
  stored : Bytes

/-- The id of the first event. -/
def firstId (ms : List EventMem) : Nat :=
  match ms with
  | [] => 0
  | m :: _ => m.event.id

/-- The id of the last event. -/
def lastId : List EventMem → Nat
  | [] => 0
  | [m] => m.event.id
  | _ :: m :: ms => lastId (m :: ms)

theorem lastId_snoc (ms : List EventMem) (m : EventMem) : lastId (ms ++ [m]) = m.event.id := by
  induction ms with
  | nil => rfl
  | cons a ms ih =>
    cases ms with
    | nil => rfl
    | cons b ms => exact ih

/-- The index entry of a region stored at `off`. -/
def irOf (crc : Bool) (off : Nat) (e : Ent) : IndexRegion where
  offset := off % 4294967296
  crc := if crc then (Crc.crc32_hw 0#32 e.stored).toNat else 0
  min := firstId e.ms
  max := lastId e.ms
  size := e.stored.length
  size_origin := rawSize e.ms
  events := e.ms.length

/-- The index entries of regions stored one after the other from `off` on. -/
def irsFrom (crc : Bool) : Nat → List Ent → List IndexRegion
  | _, [] => []
  | off, e :: es => irOf crc off e :: irsFrom crc (off + e.stored.length) es

/-- The bytes of stored regions. -/
def fileOf (es : List Ent) : Bytes := es.flatMap (·.stored)

theorem fileOf_snoc (es : List Ent) (e : Ent) : fileOf (es ++ [e]) = fileOf es ++ e.stored := by
  simp [fileOf]

theorem irsFrom_snoc (crc : Bool) (off : Nat) (es : List Ent) (e : Ent) :
    irsFrom crc off (es ++ [e]) = irsFrom crc off es ++ [irOf crc (off + (fileOf es).length) e] := by
  induction es generalizing off with
  | nil => simp [irsFrom, fileOf]
  | cons x es ih =>
    simp only [List.cons_append, irsFrom, ih]
    congr 4
    simp [fileOf]; omega

theorem irsFrom_length (crc : Bool) (off : Nat) (es : List Ent) : (irsFrom crc off es).length = es.length := by
  induction es generalizing off with
  | nil => rfl
  | cons x es ih => simp [irsFrom, ih]

/-- The limit writer_is_region_limit compares with. -/
def limitOf (s : WriterSource) : Nat := wrapU32 s.region_size

/-- A region is not continued once it reached the limit and the id changes. -/
def Prompt (lim : Nat) (ms : List EventMem) : Prop :=
  ∀ a m b, ms = a ++ m :: b → a ≠ [] → lim ≤ rawSize a → lastId a = m.event.id

/-- How the events were divided: every closed region is not empty, has reached
the limit, and does not share its last id with the region after it. -/
def Divided (lim : Nat) : List (List EventMem) → List EventMem → Prop
  | [], cur => Prompt lim cur
  | r :: rs, cur => r ≠ [] ∧ lim ≤ rawSize r ∧ Prompt lim r ∧
      (match rs with
        | [] => cur ≠ [] ∧ lastId r ≠ firstId cur
        | r' :: _ => lastId r ≠ firstId r') ∧ Divided lim rs cur

theorem divided_snoc {lim : Nat} {rs : List (List EventMem)} {cur : List EventMem} {m : EventMem}
    (h : Divided lim rs cur) (hne : cur ≠ []) (hs : lim ≤ rawSize cur) (hid : lastId cur ≠ m.event.id) :
    Divided lim (rs ++ [cur]) [m] := by
  induction rs with
  | nil =>
    refine ⟨hne, hs, h, ⟨by simp, hid⟩, ?_⟩
    intro a m' b he ha
    cases a with
    | nil => exact absurd rfl ha
    | cons x a =>
      have := congrArg List.length he
      simp at this
  | cons r rs ih =>
    obtain ⟨h1, h2, h3, h4, h5⟩ := h
    refine ⟨h1, h2, h3, ?_, ih h5⟩
    cases rs with
    | nil => exact h4.2
    | cons r' rs => exact h4

theorem prompt_snoc {lim : Nat} {ms : List EventMem} {m : EventMem} (h : Prompt lim ms)
    (hm : ms ≠ [] → lim ≤ rawSize ms → lastId ms = m.event.id) : Prompt lim (ms ++ [m]) := by
  intro a x b he ha hs
  rcases List.eq_nil_or_concat b with rfl | ⟨b', y, rfl⟩
  · have := List.append_inj' he (by simp)
    obtain ⟨rfl, h2⟩ := this
    simp only [List.cons.injEq, and_true] at h2
    subst h2
    exact hm ha hs
  · have he' : ms ++ [m] = (a ++ x :: b') ++ [y] := by rw [he]; simp
    have := List.append_inj' he' (by simp)
    exact h a x b' this.1 ha hs

theorem firstId_append {ms : List EventMem} (h : ms ≠ []) (l : List EventMem) : firstId (ms ++ l) = firstId ms := by
  cases ms with
  | nil => exact absurd rfl h
  | cons a ms => rfl

theorem divided_add {lim : Nat} {rs : List (List EventMem)} {cur : List EventMem} {m : EventMem}
    (h : Divided lim rs cur) (hne : cur ≠ [] ∨ rs = [])
    (hm : cur ≠ [] → lim ≤ rawSize cur → lastId cur = m.event.id) : Divided lim rs (cur ++ [m]) := by
  induction rs with
  | nil => exact prompt_snoc h hm
  | cons r rs ih =>
    replace hne : cur ≠ [] := by
      rcases hne with h | h
      · exact h
      · cases h
    obtain ⟨h1, h2, h3, h4, h5⟩ := h
    refine ⟨h1, h2, h3, ?_, ih h5 (.inl hne)⟩
    cases rs with
    | nil => exact ⟨by simp, by rw [firstId_append hne]; exact h4.2⟩
    | cons r' rs => exact h4

/-- Invariant of the writer: `es` are the regions in the file, `cur` the events
of the region being filled. -/
structure Inv (comp : Option Comp) (encr : Option Encr) (s : WriterSource) (w : Writer) (es : List Ent)
    (cur : List EventMem) : Prop where
  hcomp : w.comp = comp
  hencr : w.encr = encr
  source : w.source = s
  active : w.index_writer.active = true
  crc : w.index_writer.crc = s.crc
  file : w.file = fileOf es
  data : w.index_writer.data = (irsFrom s.crc 0 es).flatMap IndexRegion.bytes
  regions : w.index_writer.index.regions = es.length
  size : w.index_writer.index.size = 52 * es.length
  size_regions : w.index_writer.index.size_regions = (fileOf es).length
  events : w.index_writer.index.events = (es.flatMap (·.ms)).length
  size_ro : w.index_writer.index.size_regions_origin = (es.map fun e => rawSize e.ms).sum
  dsmall : 52 * es.length ≤ 536870912
  hcur : (w.region_writer.started = true ∧ Holds w.region_writer cur ∧ cur ≠ []) ∨
    (w.region_writer.started = false ∧ cur = [] ∧ es = [])
  small : rawSize cur ≤ 1073741824
  opens : ∀ e ∈ es, (CompFits comp (rawOf e.ms) → Opens comp encr e.stored (rawOf e.ms) ∧ e.stored ≠ []) ∧ e.ms ≠ []
    ∧ rawSize e.ms ≤ 1073741824
  divided : Divided (limitOf s) (es.map (·.ms)) cur

theorem inv_start (cs : Codecs) (s : WriterSource) :
    Inv (if s.compression = 0 then none else cs.comp s.compression)
      (if s.encryption = 0 then none else cs.encr s.encryption) s (Writer.start cs s) [] [] where
  hcomp := rfl
  hencr := rfl
  source := rfl
  active := rfl
  crc := rfl
  file := rfl
  data := rfl
  regions := rfl
  size := rfl
  size_regions := rfl
  events := rfl
  size_ro := rfl
  dsmall := by decide
  hcur := .inr ⟨rfl, rfl, rfl⟩
  small := by decide
  opens := by simp
  divided := by
    intro a m b h
    simp at h

theorem ir_length (r : IndexRegion) : r.bytes.length = 52 := by
  simp [IndexRegion.bytes]

theorem irs_length (l : List IndexRegion) : (l.flatMap IndexRegion.bytes).length = 52 * l.length := by
  induction l with
  | nil => rfl
  | cons x l ih => rw [List.flatMap_cons, List.length_append, ir_length, ih, List.length_cons]; omega

theorem exists_last {ms : List EventMem} (h : ms ≠ []) : ∃ a m, ms = a ++ [m] := by
  rcases List.eq_nil_or_concat ms with rfl | ⟨a, m, rfl⟩
  · exact absurd rfl h
  · exact ⟨a, m, by simp⟩

/-- Closing the region being filled. -/
theorem inv_stop_region {comp : Option Comp} {encr : Option Encr} {s : WriterSource} {w w' : Writer} {es : List Ent}
    {cur : List EventMem} (h : Inv comp encr s w es cur) (hwf : ∀ m ∈ cur, WF m.event) (hne : cur ≠ [])
    (hs : w.stop_region = .ok w') :
    ∃ b, w'.comp = comp ∧ w'.encr = encr ∧ w'.source = s ∧ w'.index_writer.active = true ∧
      w'.index_writer.crc = s.crc ∧ w'.file = fileOf (es ++ [⟨cur, b⟩]) ∧
      w'.index_writer.data = (irsFrom s.crc 0 (es ++ [⟨cur, b⟩])).flatMap IndexRegion.bytes ∧
      w'.index_writer.index.regions = es.length + 1 ∧
      w'.index_writer.index.size = 52 * (es.length + 1) ∧
      w'.index_writer.index.size_regions = (fileOf (es ++ [⟨cur, b⟩])).length ∧
      w'.index_writer.index.events = ((es ++ [(⟨cur, b⟩ : Ent)]).flatMap (·.ms)).length ∧
      w'.index_writer.index.size_regions_origin = ((es ++ [(⟨cur, b⟩ : Ent)]).map fun e => rawSize e.ms).sum ∧
      52 * (es.length + 1) ≤ 536870912 ∧
      (CompFits comp (rawOf cur) → Opens comp encr b (rawOf cur) ∧ b ≠ []) := by
  have hopen : w.region_writer.started = true ∧ Holds w.region_writer cur := by
    rcases h.hcur with ⟨hst, hh, _⟩ | ⟨_, hc, _⟩
    · exact ⟨hst, hh⟩
    · exact absurd hc hne
  obtain ⟨hst, hh⟩ := hopen
  unfold Writer.stop_region at hs
  rw [if_neg (by simp [hst])] at hs
  obtain ⟨rw', h1, h2⟩ := Res.bind_eq_ok.1 hs
  obtain ⟨iw, h3, h4⟩ := Res.bind_eq_ok.1 h2
  have h4 := (Res.ok.inj h4).symm
  rw [h.hcomp, h.hencr] at h1 h3 h4
  obtain ⟨g1, g2, g3, g4⟩ := stop_ok hh h1
  refine ⟨rw'.out comp encr, ?_⟩
  have hev : rw'.events ≠ 0 := by
    rw [g1.events]; intro h0; exact hne (List.eq_nil_of_length_eq_zero h0)
  unfold IndexWriter.add at h3
  rw [if_neg hev] at h3
  obtain ⟨a, la, hla⟩ := exists_last hne
  obtain ⟨f, lf, hlf⟩ : ∃ f lf, cur = f :: lf := by
    cases cur with
    | nil => exact absurd rfl hne
    | cons f lf => exact ⟨f, lf, rfl⟩
  have hmin : rw'.minId = .ok (firstId cur) := by
    rw [hlf]; exact minId_ok (hlf ▸ g1) (hwf f (by simp [hlf]))
  have hmax : rw'.maxId = .ok (lastId cur) := by
    rw [hla, lastId_snoc]; exact maxId_ok (hla ▸ g1) (hwf la (by simp [hla]))
  rw [hmin, hmax] at h3
  simp only [Res.bind_ok] at h3
  obtain ⟨d, h5, h6⟩ := Res.bind_eq_ok.1 h3
  have h6 := (Res.ok.inj h6).symm
  have hir : ({ offset := w.file.length % 4294967296
                crc := if w.index_writer.crc = true then RegionWriter.crc comp encr rw' else 0
                min := firstId cur, max := lastId cur, size := (RegionWriter.out comp encr rw').length
                size_origin := rw'.size, events := rw'.events } : IndexRegion)
      = irOf s.crc (fileOf es).length ⟨cur, rw'.out comp encr⟩ := by
    unfold irOf
    rw [h.crc, h.file, g2, g1.events]
    rfl
  rw [hir] at h5
  unfold bufWrite at h5
  split at h5
  · simp at h5
  · rename_i hb
    have h5 := (Res.ok.inj h5).symm
    subst h4
    subst h6
    refine ⟨rfl, rfl, h.source, h.active, h.crc, ?_, ?_, ?_, ?_, ?_, ?_, ?_, ?_, g4⟩
    · simp only [h.file, fileOf_snoc]
    · simp only [h5, h.data, irsFrom_snoc, List.flatMap_append, Nat.zero_add]
      simp
    · simp only [h.regions]
    · simp only [h.size]; omega
    · simp only [h.size_regions, fileOf_snoc, List.length_append]
    · simp only [h.events, g1.events, List.flatMap_append, List.length_append]
      simp
    · simp only [h.size_ro, g2, List.map_append, List.sum_append]
      simp
    · have hdl : w.index_writer.data.length = 52 * es.length := by
        rw [h.data, irs_length, irsFrom_length]
      rw [hdl, ir_length] at hb
      unfold bufLimit at hb
      omega

theorem wrapU32_small {n : Nat} (h : n < 4294967296) : wrapU32 (n : Int) = n := by
  unfold wrapU32; omega

/-- One writer_add. -/
theorem inv_add {comp : Option Comp} {encr : Option Encr} {s : WriterSource} {w w' : Writer} {es : List Ent}
    {cur : List EventMem} {m : EventMem} (h : Inv comp encr s w es cur) (hwf : ∀ m ∈ cur, WF m.event)
    (ha : w.add m = .ok w') :
    ∃ es' cur', Inv comp encr s w' es' cur' ∧
      es'.flatMap (·.ms) ++ cur' = es.flatMap (·.ms) ++ cur ++ [m] := by
  unfold Writer.add at ha
  obtain ⟨w1, h1, h2⟩ := Res.bind_eq_ok.1 ha
  obtain ⟨rw1, h3, h4⟩ := Res.bind_eq_ok.1 h2
  have h4 := (Res.ok.inj h4).symm
  -- continue the region
  have cont : cur ≠ [] → w1 = w → (limitOf s ≤ rawSize cur → lastId cur = m.event.id) →
      ∃ es' cur', Inv comp encr s w' es' cur' ∧
        es'.flatMap (·.ms) ++ cur' = es.flatMap (·.ms) ++ cur ++ [m] := by
    intro hne hw hid
    subst hw
    have hh : Holds w1.region_writer cur := by
      rcases h.hcur with ⟨hst, hh, _⟩ | ⟨_, hc, _⟩
      · exact hh
      · exact absurd hc hne
    have hh' := holds_add hh h3
    refine ⟨es, cur ++ [m], ?_, by simp⟩
    subst h4
    exact { hcomp := h.hcomp, hencr := h.hencr, source := h.source, active := h.active, crc := h.crc, file := h.file,
            data := h.data, regions := h.regions, size := h.size, size_regions := h.size_regions, events := h.events,
            size_ro := h.size_ro, dsmall := h.dsmall,
            hcur := .inl ⟨hh'.started, hh', by simp⟩, small := add_size hh h3, opens := h.opens,
            divided := divided_add h.divided (.inl hne) fun _ => hid }
  split at h1
  · rename_i hlim
    obtain ⟨same, h5, h6⟩ := Res.bind_eq_ok.1 h1
    rcases h.hcur with ⟨hst, hh, hne⟩ | ⟨hst, hc, hes⟩
    · -- a region is open
      rw [if_pos hst] at h5
      obtain ⟨a, la, hla⟩ := exists_last hne
      have hmax : w.region_writer.maxId = .ok (lastId cur) := by
        rw [hla, lastId_snoc]; exact maxId_ok (hla ▸ hh) (hwf la (by simp [hla]))
      rw [hmax] at h5
      simp only [Res.bind_ok] at h5
      have h5 := (Res.ok.inj h5).symm
      by_cases hid : lastId cur = m.event.id
      · rw [h5, if_pos (by simp [hid])] at h6
        exact cont hne (Res.ok.inj h6).symm fun _ => hid
      · rw [h5, if_neg (by simp [hid])] at h6
        obtain ⟨w2, h7, h8⟩ := Res.bind_eq_ok.1 h6
        have h8 := (Res.ok.inj h8).symm
        obtain ⟨b, g1, g2, g3, g4, g5, g6, g7, g8, g9, g10, g12, g13, g14, g11⟩ := inv_stop_region h hwf hne h7
        have hl : limitOf s ≤ rawSize cur := by
          unfold Writer.is_region_limit at hlim
          rw [hst, h.source, hh.byteSize] at hlim
          rw [wrapU32_small (by have := h.small; omega)] at hlim
          simpa [limitOf] using hlim
        subst h8
        have hs0 : Holds (w2.start_region).region_writer [] := holds_start w2.region_writer
        have hh' := holds_add hs0 h3
        refine ⟨es ++ [⟨cur, b⟩], [m], ?_, by simp⟩
        subst h4
        exact { hcomp := g1, hencr := g2, source := g3, active := g4, crc := g5, file := g6, data := g7,
                regions := by rw [List.length_append]; exact g8, size := by rw [List.length_append]; exact g9, size_regions := g10,
                events := g12, size_ro := g13, dsmall := by rw [List.length_append]; exact g14,
                hcur := .inl ⟨hh'.started, hh', by simp⟩, small := by simpa using add_size hs0 h3
                opens := by
                  intro e he
                  rcases List.mem_append.1 he with he | he
                  · exact h.opens e he
                  · simp only [List.mem_singleton] at he
                    subst he
                    exact ⟨g11, hne, h.small⟩
                divided := by
                  rw [List.map_append]
                  exact divided_snoc h.divided hne hl hid }
    · -- the first event
      subst hc hes
      rw [if_neg (by simp [hst])] at h5
      have h5 := (Res.ok.inj h5).symm
      subst h5
      rw [if_neg (by simp)] at h6
      obtain ⟨w2, h7, h8⟩ := Res.bind_eq_ok.1 h6
      have h8 := (Res.ok.inj h8).symm
      have hw2 : w2 = w := by
        unfold Writer.stop_region at h7
        rw [if_pos (by simp [hst])] at h7
        exact (Res.ok.inj h7).symm
      subst hw2
      subst h8
      have hs0 : Holds (w2.start_region).region_writer [] := holds_start w2.region_writer
      have hh' := holds_add hs0 h3
      refine ⟨[], [m], ?_, by simp⟩
      subst h4
      exact { hcomp := h.hcomp, hencr := h.hencr, source := h.source, active := h.active, crc := h.crc, file := h.file,
              data := h.data, regions := h.regions, size := h.size, size_regions := h.size_regions, events := h.events,
              size_ro := h.size_ro, dsmall := h.dsmall,
              hcur := .inl ⟨hh'.started, hh', by simp⟩, small := by simpa using add_size hs0 h3, opens := h.opens,
              divided := by
                have := divided_add (m := m) h.divided (.inr rfl) (by simp)
                simpa using this }
  · rename_i hlim
    have hw := (Res.ok.inj h1).symm
    rcases h.hcur with ⟨hst, hh, hne⟩ | ⟨hst, hc, hes⟩
    · refine cont hne hw fun hl => ?_
      exfalso
      apply hlim
      unfold Writer.is_region_limit
      rw [hst, h.source, hh.byteSize, wrapU32_small (by have := h.small; omega)]
      simpa [limitOf] using hl
    · exfalso
      apply hlim
      unfold Writer.is_region_limit
      simp [hst]

theorem inv_addAll {comp : Option Comp} {encr : Option Encr} {s : WriterSource} {w w' : Writer} {es : List Ent}
    {cur ms : List EventMem} (h : Inv comp encr s w es cur)
    (hwf : ∀ m ∈ es.flatMap (·.ms) ++ cur ++ ms, WF m.event) (ha : w.addAll ms = .ok w') :
    ∃ es' cur', Inv comp encr s w' es' cur' ∧ es'.flatMap (·.ms) ++ cur' = es.flatMap (·.ms) ++ cur ++ ms := by
  induction ms generalizing w es cur with
  | nil =>
    have := (Res.ok.inj ha).symm
    subst this
    exact ⟨es, cur, h, by simp⟩
  | cons m ms ih =>
    obtain ⟨w1, h1, h2⟩ := Res.bind_eq_ok.1 ha
    obtain ⟨es1, cur1, g1, g2⟩ := inv_add h (fun x hx => hwf x (by simp [hx])) h1
    obtain ⟨es2, cur2, k1, k2⟩ := ih g1 (by rw [g2]; simpa using hwf) h2
    exact ⟨es2, cur2, k1, by rw [k2, g2]; simp⟩

end Verif.Io
