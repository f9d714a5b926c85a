import Verif.Proofs.Writer
import Verif.Proofs.Crc
import Verif.Spec.Iter

namespace Verif.Io

theorem pread_ok {a b c : Bytes} (hb : b ≠ []) : pread (a ++ b ++ c) b.length a.length = .ok b := by
  unfold pread
  have : b.length ≠ 0 := by simpa using hb
  rw [if_neg (by simp [List.length_append]; omega)]
  rw [List.append_assoc, List.drop_left' rfl, List.take_left' rfl]

/-! ### Index entries -/

/-- Field widths of an index entry. -/
def IRWF (r : IndexRegion) : Prop :=
  r.offset < 4294967296 ∧ r.crc < 4294967296 ∧ r.min < 18446744073709551616 ∧ r.max < 18446744073709551616 ∧
  r.size < 4294967296 ∧ r.size_origin < 4294967296 ∧ r.events < 4294967296

theorem getU_repl (rest : Bytes) : getU 16 (List.replicate 16 (0 : UInt8) ++ rest) = .ok (0, rest) := by
  rw [getU_append 16 _ _ (by simp)]
  rfl

theorem ir_at {r : IndexRegion} (h : IRWF r) (rest : Bytes) : IndexRegion.at_ (r.bytes ++ rest) = .ok r := by
  obtain ⟨h1, h2, h3, h4, h5, h6, h7⟩ := h
  unfold IndexRegion.at_ IndexRegion.bytes
  simp only [List.append_assoc]
  iterate 7
    rw [getU_le _ (by omega)]
    simp only [Res.bind_ok]
  rw [getU_repl]
  rfl

theorem irs_drop (l : List IndexRegion) (i : Nat) :
    (l.flatMap IndexRegion.bytes).drop (52 * i) = (l.drop i).flatMap IndexRegion.bytes := by
  induction i generalizing l with
  | zero => simp
  | succ i ih =>
    cases l with
    | nil => simp
    | cons x l =>
      rw [List.flatMap_cons, List.drop_succ_cons, ← ih l]
      have : 52 * (i + 1) = 52 + 52 * i := by omega
      rw [this, ← List.drop_drop, List.drop_left' (ir_length x)]

theorem index_get {i : Index} {l : List IndexRegion} {pos : Nat} {r : IndexRegion} (hr : i.regions = l.length)
    (hp : l[pos]? = some r) (hwf : IRWF r) : i.get (l.flatMap IndexRegion.bytes) pos = .ok r := by
  obtain ⟨hlt, he⟩ := List.getElem?_eq_some_iff.1 hp
  unfold Index.get
  rw [if_neg (by omega), irs_drop, List.drop_eq_getElem_cons hlt, he, List.flatMap_cons]
  exact ir_at hwf _

theorem irsFrom_get {crc : Bool} {off : Nat} {es : List Ent} {i : Nat} {e : Ent} (h : es[i]? = some e) :
    (irsFrom crc off es)[i]? = some (irOf crc (off + (fileOf (es.take i)).length) e) := by
  induction es generalizing off i with
  | nil => simp at h
  | cons x es ih =>
    cases i with
    | zero =>
      simp only [List.getElem?_cons_zero, Option.some.injEq] at h
      subst h
      simp [irsFrom, fileOf]
    | succ i =>
      simp only [List.getElem?_cons_succ] at h
      simp only [irsFrom, List.getElem?_cons_succ, ih h, List.take_succ_cons]
      congr 2
      simp [fileOf]; omega

/-! ### The header -/

/-- Field widths of the header. -/
def IndexWF (i : Index) : Prop :=
  (i.crc < 4294967296 ∧ i.crc_data < 4294967296 ∧ i.magic < 4294967296 ∧ i.version < 4294967296) ∧
  (i.id_min < 18446744073709551616 ∧ i.id_max < 18446744073709551616 ∧ i.size < 4294967296 ∧
    i.size_origin < 4294967296) ∧
  (i.size_regions < 18446744073709551616 ∧ i.size_regions_origin < 18446744073709551616 ∧
    i.size_total < 18446744073709551616 ∧ i.size_total_origin < 18446744073709551616) ∧
  (i.regions < 4294967296 ∧ i.events < 18446744073709551616 ∧ i.time_create < 18446744073709551616 ∧
    i.time_refresh < 18446744073709551616) ∧
  (i.refreshes < 4294967296 ∧ i.lsn < 18446744073709551616 ∧ i.compression < 256 ∧ i.encryption < 256)

theorem tail_length (i : Index) : i.tailBytes.length = 126 := by
  unfold Index.tailBytes
  simp only [List.length_append, le_length, List.length_replicate]

theorem index_length (i : Index) : i.bytes.length = 130 := by
  simp [Index.bytes, tail_length]

theorem getU_bind {α : Type} {w n : Nat} {r : Bytes} {f : Nat × Bytes → Res α} {x : Res α} (h : n < 256 ^ w)
    (hx : f (n, r) = x) : (getU w (le w n ++ r)).bind f = x := by
  rw [getU_le r h]; exact hx

theorem index_at {i : Index} (h : IndexWF i) (rest : Bytes) : Index.at_ (i.bytes ++ rest) = .ok i := by
  obtain ⟨⟨h1, h2, h3, h4⟩, ⟨h5, h6, h7, h8⟩, ⟨h9, h10, h11, h12⟩, ⟨h13, h14, h15, h16⟩, ⟨h17, h18, h19, h20⟩⟩ := h
  unfold Index.bytes Index.tailBytes
  simp only [List.append_assoc]
  unfold Index.at_
  refine getU_bind h1 ?_
  refine getU_bind h2 ?_
  refine getU_bind h3 ?_
  refine getU_bind h4 ?_
  refine getU_bind h5 ?_
  refine getU_bind h6 ?_
  refine getU_bind h7 ?_
  refine getU_bind h8 ?_
  refine getU_bind h9 ?_
  refine getU_bind h10 ?_
  refine getU_bind h11 ?_
  refine getU_bind h12 ?_
  refine getU_bind h13 ?_
  refine getU_bind h14 ?_
  refine getU_bind h15 ?_
  refine getU_bind h16 ?_
  refine getU_bind h17 ?_
  refine getU_bind h18 ?_
  refine getU_bind h19 ?_
  refine getU_bind h20 ?_
  refine (congrArg (fun x => Res.bind x _) (getU_repl rest)).trans ?_
  rfl

/-- The checksum over the header with a zero checksum field is the checksum over
the rest of the header. -/
theorem crc_header (t : Bytes) : Crc.crc32_hw 0#32 (le 4 0 ++ t) = Crc.crc32_hw 0#32 t := by
  rw [Crc.hw_eq, Crc.hw_eq, Crc.crc_append]
  have : CrcSpec.crc 0#32 (le 4 0) = 0#32 := by decide +kernel
  rw [this]

/-- A header that index_open accepts, for the bytes in front of it. -/
theorem index_open_ok {pre : Bytes} {i : Index} (hwf : IndexWF i) (hm : i.magic = 0x20849615) (hv : i.version = 0)
    (hc : i.crc = (Crc.crc32_hw 0#32 i.tailBytes).toNat) (hs : i.size_total = pre.length + 130) :
    index_open false (pre ++ i.bytes) = .ok i := by
  unfold index_open
  have hl : (pre ++ i.bytes).length = pre.length + 130 := by rw [List.length_append, index_length]
  rw [if_neg (by omega)]
  have hp : pread (pre ++ i.bytes) 130 ((pre ++ i.bytes).length - 130) = .ok i.bytes := by
    have := @pread_ok pre i.bytes [] (by intro h; have := index_length i; rw [h] at this; simp at this)
    rw [List.append_nil, index_length] at this
    rw [hl, Nat.add_sub_cancel]
    exact this
  rw [hp]
  simp only [Res.bind_ok]
  have ha := index_at hwf []
  rw [List.append_nil] at ha
  rw [ha]
  simp only [Res.bind_ok]
  have hd : i.bytes.drop 4 = i.tailBytes := by
    unfold Index.bytes; rw [List.drop_left' (le_length 4 _)]
  rw [hd, if_neg (by rw [hm]; simp), if_neg (by rw [hc]; simp), if_neg (by simp [hl, hs]),
    if_neg (by omega)]

/-- Index data that index_read accepts. -/
theorem index_read_ok {cs : Codecs} {pre out : Bytes} {i : Index} {d : Bytes} {comp : Option Comp}
    {encr : Option Encr} (hsz : i.size = out.length) (hc : i.crc_data = (Crc.crc32_hw 0#32 out).toNat)
    (ho : Opens comp encr out d) (hso : i.size_origin = d.length)
    (he : (if i.encryption = 0 then none else cs.encr i.encryption) = encr)
    (hen : encr = none → i.encryption = 0)
    (hcm : (if i.compression = 0 then none else cs.comp i.compression) = comp)
    (hcn : comp = none → i.compression = 0) (hne : out = [] → d = []) :
    index_read cs (pre ++ (out ++ i.bytes)) i = .ok d := by
  unfold index_read
  have hl : (pre ++ (out ++ i.bytes)).length = pre.length + out.length + 130 := by
    simp [index_length]; omega
  by_cases h0 : out = []
  · rw [if_pos (by rw [hsz, h0]; rfl), hne h0]
  · have hol : out.length ≠ 0 := by simpa using h0
    rw [if_neg (by omega), if_neg (by omega)]
    have hp : pread (pre ++ (out ++ i.bytes)) i.size ((pre ++ (out ++ i.bytes)).length - (130 + i.size)) = .ok out := by
      have hp := @pread_ok pre out i.bytes h0
      have h3 : (pre ++ (out ++ i.bytes)).length - (130 + i.size) = pre.length := by omega
      rw [h3, hsz, ← List.append_assoc]
      exact hp
    rw [hp]
    simp only [Res.bind_ok]
    rw [if_neg (by rw [hc]; simp)]
    unfold Opens at ho
    cases encr with
    | none =>
      rw [if_pos (hen rfl)]
      simp only [Res.bind_ok] at ho ⊢
      cases comp with
      | none =>
        rw [if_pos (hcn rfl)]
        exact ho
      | some c =>
        have hz : i.compression ≠ 0 := by
          intro h; rw [if_pos h] at hcm; cases hcm
        rw [if_neg hz] at hcm ⊢
        rw [hcm, hso]
        exact ho
    | some e =>
      have hz : i.encryption ≠ 0 := by
        intro h; rw [if_pos h] at he; cases he
      rw [if_neg hz] at he ⊢
      rw [he]
      simp only at ho ⊢
      obtain ⟨x, h1, h2⟩ := Res.bind_eq_ok.1 ho
      rw [h1]
      simp only [Res.bind_ok]
      cases comp with
      | none =>
        rw [if_pos (hcn rfl)]
        exact h2
      | some c =>
        have hz : i.compression ≠ 0 := by
          intro h; rw [if_pos h] at hcm; cases hcm
        rw [if_neg hz] at hcm ⊢
        rw [hcm, hso]
        exact h2

/-! ### Reading regions -/

theorem raw_header (ms : List EventMem) : ∃ r, rawOf ms = le 4 (rawSize ms) ++ (le 4 ms.length ++ r) := by
  refine ⟨List.replicate 16 0 ++ (offsOf ms).flatMap (le 4) ++ dataOf ms, ?_⟩
  simp [rawOf, rawSize, List.append_assoc]

theorem reader_ok {cs : Codecs} {p : PartFile} {ir : IndexRegion} {b : Bytes} {ms : List EventMem} {pre post : Bytes}
    {comp : Option Comp} {encr : Option Encr}
    (hf : p.file = pre ++ b ++ post) (hb : b ≠ []) (hs : ir.size = b.length) (hofs : ir.offset = pre.length)
    (hso : ir.size_origin = rawSize ms) (hev : ir.events = ms.length) (hsm : rawSize ms < 4294967296)
    (he : (if p.index.encryption = 0 then none else cs.encr p.index.encryption) = encr)
    (hc : (if p.index.compression = 0 then none else cs.comp p.index.compression) = comp)
    (ho : Opens comp encr b (rawOf ms)) :
    reader_execute cs p ir = .ok ⟨rawOf ms, ms.length⟩ := by
  unfold reader_execute
  rw [hf, hs, hofs, pread_ok hb]
  simp only [Res.bind_ok]
  rw [he, hc]
  have hd : ∃ d, (match encr with
      | some e => e.decrypt b
      | none => Res.ok b) = .ok d ∧ (match comp with
      | some c => c.decompress d (rawOf ms).length
      | none => Res.ok d) = .ok (rawOf ms) := Res.bind_eq_ok.1 ho
  obtain ⟨d, h1, h2⟩ := hd
  refine Res.bind_eq_ok.2 ⟨d, h1, ?_⟩
  rw [rawOf_length] at h2
  rw [hso]
  refine Res.bind_eq_ok.2 ⟨_, h2, ?_⟩
  obtain ⟨r, hr⟩ := raw_header ms
  have hn : ms.length < 4294967296 := by unfold rawSize at hsm; omega
  have g1 : getU 4 (rawOf ms) = .ok (rawSize ms, le 4 ms.length ++ r) := by
    rw [hr]; exact getU_le _ (by omega)
  rw [g1]
  simp only [Res.bind_ok]
  rw [getU_le _ (by omega)]
  simp only [Res.bind_ok]
  rw [if_neg (by simp [hev])]

/-- An open partition file that holds the regions `rs`. -/
structure Rep (cs : Codecs) (p : PartFile) (rs : List (List Event)) : Prop where
  regions : p.index.regions = rs.length
  region : ∀ i r, rs[i]? = some r → r ≠ [] ∧ ∃ ir rg, p.index.get p.index_data i = .ok ir ∧
    (∃ e, r.head? = some e ∧ ir.min = e.id) ∧ (∃ e, r.getLast? = some e ∧ ir.max = e.id) ∧
    ir.events = r.length ∧ reader_execute cs p ir = .ok rg ∧ rg.events = r.length ∧ ∀ (j : Nat) (e : Event), r[j]? = some e → rg.get j = .ok e

/-! ### The end of writing -/

/-- The header and index data after index_writer_stop. -/
structure Stopped (comp : Option Comp) (encr : Option Encr) (iw iw' : IndexWriter) (a : IndexWriter.StopArg) : Prop where
  data : iw'.data = iw.data
  crc : iw'.index.crc = (Crc.crc32_hw 0#32 iw'.index.tailBytes).toNat
  crc_data : iw'.index.crc_data = (Crc.crc32_hw 0#32 (iw'.out comp encr)).toNat
  magic : iw'.index.magic = 0x20849615
  version : iw'.index.version = 0
  id_min : iw'.index.id_min = a.id_min
  id_max : iw'.index.id_max = a.id_max
  size : iw'.index.size = (iw'.out comp encr).length
  size_origin : iw'.index.size_origin = iw.data.length
  size_regions : iw'.index.size_regions = iw.index.size_regions
  size_ro : iw'.index.size_regions_origin = iw.index.size_regions_origin
  size_total : iw'.index.size_total = iw.index.size_regions + (iw'.out comp encr).length + 130
  size_to : iw'.index.size_total_origin = iw.index.size_regions_origin + iw.data.length + 130
  regions : iw'.index.regions = iw.index.regions
  events : iw'.index.events = iw.index.events
  time_create : iw'.index.time_create = a.time_create
  time_refresh : iw'.index.time_refresh = a.time_refresh
  refreshes : iw'.index.refreshes = a.refreshes
  lsn : iw'.index.lsn = a.lsn
  compression : iw'.index.compression = if comp.isSome then a.compression else 0
  encryption : iw'.index.encryption = if encr.isSome then a.encryption else 0
  opens : CompFits comp iw.data → Opens comp encr (iw'.out comp encr) iw.data
  empty : iw'.out comp encr = [] → CompFits comp iw.data → iw.data = []

theorem tail_crc (i : Index) (k : Nat) : ({ i with crc := k } : Index).tailBytes = i.tailBytes := rfl

section
attribute [local irreducible] Crc.crc32_hw Index.tailBytes le

theorem pack_ok {comp : Option Comp} {encr : Option Encr} {iv : Nat} {iw w : IndexWriter}
    (h1 : iw.pack comp encr iv = .ok w) :
    w.data = iw.data ∧ w.index = iw.index ∧
      (CompFits comp iw.data → Opens comp encr (w.out comp encr) iw.data) ∧
      (w.out comp encr = [] → CompFits comp iw.data → iw.data = []) := by
  unfold IndexWriter.pack at h1
  cases comp with
  | none =>
    cases encr with
    | none =>
      have h1 := (Res.ok.inj h1).symm
      subst h1
      exact ⟨rfl, rfl, fun _ => by simp [Opens, IndexWriter.out], fun h _ => h⟩
    | some e =>
      obtain ⟨y, hy, h3⟩ := Res.bind_eq_ok.1 h1
      have h3 := (Res.ok.inj h3).symm
      subst h3
      exact ⟨rfl, rfl, fun _ => by simp [Opens, IndexWriter.out, e.law _ _ _ hy],
        fun h => absurd h (e.encrypt_ne _ _ _ hy)⟩
  | some c =>
    cases encr with
    | none =>
      have h1 := (Res.ok.inj h1).symm
      subst h1
      refine ⟨rfl, rfl, fun hc => ?_, fun h hc => ?_⟩
      · simp only [Opens, IndexWriter.out, Res.bind_ok]
        rw [compress_fits hc, c.law]
      · simp only [IndexWriter.out] at h
        rw [compress_fits hc] at h
        exact absurd h (c.frame_ne _)
    | some e =>
      obtain ⟨y, hy, h3⟩ := Res.bind_eq_ok.1 h1
      have h3 := (Res.ok.inj h3).symm
      subst h3
      refine ⟨rfl, rfl, fun hc => ?_, fun h => absurd h (e.encrypt_ne _ _ _ hy)⟩
      dsimp only at hy
      rw [compress_fits hc] at hy
      simp only [Opens, IndexWriter.out, e.law _ _ _ hy, Res.bind_ok]
      rw [c.law]

theorem finish_index (comp : Option Comp) (encr : Option Encr) (w : IndexWriter) (a : IndexWriter.StopArg) :
    (w.finish comp encr a).index = { w.header comp encr a with
      crc := (Crc.crc32_hw 0#32 (w.header comp encr a).tailBytes).toNat } := by
  have hb : (w.header comp encr a).bytes = le 4 0 ++ (w.header comp encr a).tailBytes := rfl
  unfold IndexWriter.finish
  rw [hb, crc_header]

theorem out_index (comp : Option Comp) (encr : Option Encr) (w : IndexWriter) (i : Index) :
    ({ w with index := i } : IndexWriter).out comp encr = w.out comp encr := by
  cases encr <;> cases comp <;> rfl

theorem data_index (w : IndexWriter) (i : Index) : ({ w with index := i } : IndexWriter).data = w.data := rfl

theorem index_stop_ok {comp : Option Comp} {encr : Option Encr} {iv : Nat} {iw iw' : IndexWriter}
    {a : IndexWriter.StopArg} (h : iw.stop comp encr iv a = .ok iw') (hd : iw.index.size = iw.data.length) :
    Stopped comp encr iw iw' a := by
  unfold IndexWriter.stop at h
  obtain ⟨w, h1, h2⟩ := Res.bind_eq_ok.1 h
  have h2 := (Res.ok.inj h2).symm
  obtain ⟨hw1, hw2, hw3, hw4⟩ := pack_ok h1
  have hsz : w.outSize comp encr = (w.out comp encr).length := by
    unfold IndexWriter.outSize
    cases comp with
    | none =>
      cases encr with
      | none => simp only [IndexWriter.out]; rw [hw2, hd, hw1]
      | some e => rfl
    | some c => cases encr <;> rfl
  have hout : iw'.out comp encr = w.out comp encr := by rw [h2]; exact out_index comp encr w _
  have hos : w.index.size = iw.data.length := by rw [hw2, hd]
  have hidx := finish_index comp encr w a
  rw [← h2] at hidx
  exact
    { data := by rw [h2]; exact (data_index w _).trans hw1
      crc := by
        rw [hidx]
        exact congrArg (fun t => (Crc.crc32_hw 0#32 t).toNat) (tail_crc (w.header comp encr a) _).symm
      crc_data := by rw [hout, hidx]; rfl
      magic := by rw [hidx]; rfl
      version := by rw [hidx]; rfl
      id_min := by rw [hidx]; rfl
      id_max := by rw [hidx]; rfl
      size := by rw [hout, ← hsz, hidx]; rfl
      size_origin := by rw [hidx, ← hos]; rfl
      size_regions := by rw [hidx, ← hw2]; rfl
      size_ro := by rw [hidx, ← hw2]; rfl
      size_total := by rw [hout, ← hsz, hidx, ← hw2]; rfl
      size_to := by rw [hidx, ← hw2, ← hos]; rfl
      regions := by rw [hidx, ← hw2]; rfl
      events := by rw [hidx, ← hw2]; rfl
      time_create := by rw [hidx]; rfl
      time_refresh := by rw [hidx]; rfl
      refreshes := by rw [hidx]; rfl
      lsn := by rw [hidx]; rfl
      compression := by rw [hidx]; rfl
      encryption := by rw [hidx]; rfl
      opens := by rw [hout]; exact hw3
      empty := by rw [hout]; exact hw4 }

end

/-- How a complete file is divided into regions. -/
def Complete (lim : Nat) (rs : List (List EventMem)) : Prop :=
  rs = [] ∨ ∃ a cur, rs = a ++ [cur] ∧ cur ≠ [] ∧ Divided lim a cur

theorem sum_le {l : List Nat} {b : Nat} (h : ∀ x ∈ l, x ≤ b) : l.sum ≤ b * l.length := by
  induction l with
  | nil => simp
  | cons x l ih =>
    have h1 := h x (by simp)
    have h2 := ih fun y hy => h y (by simp [hy])
    simp only [List.sum_cons, List.length_cons, Nat.mul_add]
    omega

theorem fileOf_ge {es : List Ent} (h : ∀ e ∈ es, e.stored ≠ []) : es.length ≤ (fileOf es).length := by
  induction es with
  | nil => simp
  | cons e es ih =>
    have h1 : e.stored.length ≠ 0 := by simpa using h e (by simp)
    have h2 := ih fun y hy => h y (by simp [hy])
    simp only [fileOf, List.flatMap_cons, List.length_append, List.length_cons] at h2 ⊢
    omega

end Verif.Io
