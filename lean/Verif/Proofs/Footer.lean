import Verif.Spec.C18
import Verif.Proofs.PartOpen

namespace Verif.C18

open Verif.Io

/-- The same bits outside a window of 32. -/
def Window (s : Nat) (x y : Bytes) : Prop :=
  x.length = y.length ∧ ∀ i, i < s ∨ s + 32 ≤ i → (CrcSpec.bits x)[i]? = (CrcSpec.bits y)[i]?

theorem byteBits_inj {a b : UInt8} (h : CrcSpec.byteBits a = CrcSpec.byteBits b) : a = b := by
  have e : ∀ x : UInt8, Crc.num (CrcSpec.byteBits x) = x.toNat := fun x => Crc.num_bits 8 x.toNat x.toNat_lt
  apply UInt8.toNat_inj.1
  rw [← e a, ← e b, h]

theorem bits_inj {x y : Bytes} (h : CrcSpec.bits x = CrcSpec.bits y) : x = y := by
  induction x generalizing y with
  | nil =>
    cases y with
    | nil => rfl
    | cons b y =>
      have := congrArg List.length h
      rw [Crc.bits_length, Crc.bits_length] at this
      simp at this
  | cons a x ih =>
    cases y with
    | nil =>
      have := congrArg List.length h
      rw [Crc.bits_length, Crc.bits_length] at this
      simp at this
    | cons b y =>
      have h : CrcSpec.byteBits a ++ CrcSpec.bits x = CrcSpec.byteBits b ++ CrcSpec.bits y := h
      obtain ⟨h1, h2⟩ := List.append_inj h (by rw [Crc.byteBits_length, Crc.byteBits_length])
      rw [byteBits_inj h1, ih h2]

theorem burst_window {x y : Bytes} (h : CrcSpec.Burst x y) : x ≠ y ∧ ∃ s, Window s x y := by
  obtain ⟨pre, mid, mid', post, hx, hy, hl, h32, hne⟩ := h
  refine ⟨?_, pre.length, ?_, ?_⟩
  · rintro rfl
    rw [hx] at hy
    simp only [List.append_assoc, List.append_cancel_left_eq] at hy
    exact hne (List.append_inj hy hl).1
  · have h1 := congrArg List.length hx
    have h2 := congrArg List.length hy
    rw [Crc.bits_length] at h1 h2
    simp only [List.length_append] at h1 h2
    omega
  · intro i hi
    rw [hx, hy]
    rcases hi with hi | hi
    · rw [List.append_assoc, List.append_assoc, List.getElem?_append_left hi, List.getElem?_append_left hi]
    · rw [List.getElem?_append_right (by simp; omega), List.getElem?_append_right (by simp; omega)]
      simp only [List.length_append, hl]

theorem window_burst {x y : Bytes} {s : Nat} (h : Window s x y) (hne : x ≠ y) : CrcSpec.Burst x y := by
  obtain ⟨hl, hw⟩ := h
  have hbl : (CrcSpec.bits x).length = (CrcSpec.bits y).length := by rw [Crc.bits_length, Crc.bits_length, hl]
  have e : ∀ l : List Bool, l = l.take s ++ (l.drop s).take 32 ++ (l.drop s).drop 32 := by
    intro l
    rw [List.append_assoc, List.take_append_drop, List.take_append_drop]
  have h1 : (CrcSpec.bits x).take s = (CrcSpec.bits y).take s := by
    apply List.ext_getElem?
    intro i
    rw [List.getElem?_take, List.getElem?_take]
    split
    · exact hw i (.inl ‹_›)
    · rfl
  have h2 : ((CrcSpec.bits x).drop s).drop 32 = ((CrcSpec.bits y).drop s).drop 32 := by
    apply List.ext_getElem?
    intro i
    rw [List.getElem?_drop, List.getElem?_drop, List.getElem?_drop, List.getElem?_drop]
    exact hw _ (.inr (by omega))
  refine ⟨_, _, ((CrcSpec.bits y).drop s).take 32, _, e _, ?_, ?_, ?_, ?_⟩
  · rw [h1, h2]; exact e _
  · rw [List.length_take, List.length_take, List.length_drop, List.length_drop, hbl]
  · rw [List.length_take]; exact Nat.min_le_left _ _
  · intro h3
    apply hne
    apply bits_inj
    rw [e (CrcSpec.bits x), e (CrcSpec.bits y), h1, h2, h3]

theorem window_left {a b a' b' : Bytes} {s : Nat} (h : Window s (a ++ b) (a' ++ b')) (hl : a.length = a'.length) :
    Window s a a' := by
  obtain ⟨_, hw⟩ := h
  refine ⟨hl, fun i hi => ?_⟩
  have := hw i hi
  rw [Crc.bits_append, Crc.bits_append] at this
  by_cases h1 : i < (CrcSpec.bits a).length
  · rwa [List.getElem?_append_left h1, List.getElem?_append_left (by
      rw [Crc.bits_length] at h1 ⊢; omega)] at this
  · rw [List.getElem?_eq_none (by omega), List.getElem?_eq_none (by rw [Crc.bits_length] at h1 ⊢; omega)]

theorem window_right {a b a' b' : Bytes} {s : Nat} (h : Window s (a ++ b) (a' ++ b')) (hl : a.length = a'.length) :
    Window (s - 8 * a.length) b b' := by
  obtain ⟨h0, hw⟩ := h
  simp only [List.length_append] at h0
  refine ⟨by omega, fun i hi => ?_⟩
  have := hw (8 * a.length + i) (by omega)
  rw [Crc.bits_append, Crc.bits_append, List.getElem?_append_right (by rw [Crc.bits_length]; omega),
    List.getElem?_append_right (by rw [Crc.bits_length]; omega), Crc.bits_length, Crc.bits_length] at this
  have e1 : 8 * a.length + i - 8 * a.length = i := by omega
  have e2 : 8 * a.length + i - 8 * a'.length = i := by omega
  rwa [e1, e2] at this

/-- A window that starts after `x` leaves `x` alone. -/
theorem window_after {x y : Bytes} {s : Nat} (h : Window s x y) (hs : 8 * x.length ≤ s) : x = y := by
  apply bits_inj
  apply List.ext_getElem?
  intro i
  by_cases hi : i < s
  · exact h.2 i (.inl hi)
  · have := h.1
    rw [List.getElem?_eq_none (by rw [Crc.bits_length]; omega), List.getElem?_eq_none (by rw [Crc.bits_length]; omega)]

/-- A window that ends before `x`. -/
theorem window_before {x y a b : Bytes} {s : Nat} (h : Window s (a ++ x) (b ++ y)) (hl : a.length = b.length)
    (hs : s + 32 ≤ 8 * a.length) : x = y := by
  have hw := h.2
  have h0 := h.1
  simp only [List.length_append] at h0
  apply bits_inj
  apply List.ext_getElem?
  intro i
  have := hw (8 * a.length + i) (.inr (by omega))
  rw [Crc.bits_append, Crc.bits_append, List.getElem?_append_right (by rw [Crc.bits_length]; omega),
    List.getElem?_append_right (by rw [Crc.bits_length]; omega), Crc.bits_length, Crc.bits_length] at this
  have e1 : 8 * a.length + i - 8 * a.length = i := by omega
  have e2 : 8 * a.length + i - 8 * b.length = i := by omega
  rwa [e1, e2] at this

theorem getU_any {α : Type} {w : Nat} {bs : Bytes} {f : Nat × Bytes → Res α} {P : Res α → Prop} (h : w ≤ bs.length)
    (hx : P (f (leVal (bs.take w), bs.drop w))) : P ((getU w bs).bind f) := by
  unfold getU
  rw [if_neg (by omega)]
  exact hx

/-- The fields of a header that are checked on open. -/
def Fields (h : Bytes) (r : Res Index) : Prop :=
  ∃ i, r = .ok i ∧ i.crc = leVal (h.take 4) ∧ i.magic = leVal ((h.drop 8).take 4) ∧
    i.size_total = leVal ((h.drop 56).take 8)

theorem at_any {h : Bytes} (hl : h.length = 130) : Fields h (Index.at_ h) := by
  unfold Index.at_
  refine getU_any (P := Fields h) (by omega) ?_
  iterate 20
    refine getU_any (P := Fields h) (by simp only [List.length_drop]; omega) ?_
  refine ⟨_, rfl, rfl, ?_, ?_⟩
  · simp only [List.drop_drop]
  · simp only [List.drop_drop]

/-- An accepted file ends with a header that names its size. -/
theorem open_ends {file : Bytes} {i : Index} (h : index_open false file = .ok i) : EndsWithHeader file := by
  unfold index_open at h
  by_cases hl : file.length < 130
  · rw [if_pos hl] at h; cases h
  rw [if_neg hl] at h
  obtain ⟨bs, h1, h2⟩ := Res.bind_eq_ok.1 h
  unfold pread at h1
  rw [if_neg (by omega)] at h1
  have h1 := (Res.ok.inj h1).symm
  have hd : (file.drop (file.length - 130)).length = 130 := by rw [List.length_drop]; omega
  rw [List.take_of_length_le (by omega)] at h1
  have hbs : bs.length = 130 := by rw [h1]; exact hd
  obtain ⟨j, g1, g2, g3, g4⟩ := at_any hbs
  rw [g1] at h2
  simp only [Res.bind_ok] at h2
  by_cases c1 : j.magic ≠ 0x20849615
  · rw [if_pos c1] at h2; cases h2
  rw [if_neg c1] at h2
  by_cases c2 : (Crc.crc32_hw 0#32 (bs.drop 4)).toNat ≠ j.crc
  · rw [if_pos c2] at h2; cases h2
  rw [if_neg c2] at h2
  by_cases c3 : file.length ≠ (if false = true then j.size + 130 else j.size_total)
  · rw [if_pos c3] at h2; cases h2
  refine ⟨file.take (file.length - 130), bs, ?_, hbs, ?_, ?_, ?_⟩
  · rw [h1, List.take_append_drop]
  · rw [← g2, ← Decidable.not_not.1 c2, Crc.hw_eq]
  · rw [← g3]; exact Decidable.not_not.1 c1
  · rw [← g4]
    have := Decidable.not_not.1 c3
    simpa using this.symm

/-- A file whose header has the wrong checksum is rejected. -/
theorem open_crc {pre h : Bytes} (hl : h.length = 130)
    (hc : leVal (h.take 4) ≠ (CrcSpec.crc 0#32 (h.drop 4)).toNat) : ∃ m, index_open false (pre ++ h) = .err m := by
  unfold index_open
  have hlen : (pre ++ h).length = pre.length + 130 := by rw [List.length_append, hl]
  rw [if_neg (by omega)]
  have hp : pread (pre ++ h) 130 ((pre ++ h).length - 130) = .ok h := by
    have := @pread_ok pre h [] (by intro h0; rw [h0] at hl; simp at hl)
    rw [List.append_nil, hl] at this
    rw [hlen, Nat.add_sub_cancel]
    exact this
  rw [hp]
  simp only [Res.bind_ok]
  obtain ⟨j, g1, g2, g3, g4⟩ := at_any hl
  rw [g1]
  simp only [Res.bind_ok]
  by_cases c1 : j.magic ≠ 0x20849615
  · rw [if_pos c1]; exact ⟨_, rfl⟩
  · rw [if_neg c1, if_pos (by rw [g2, Crc.hw_eq]; exact fun e => hc e.symm)]; exact ⟨_, rfl⟩

theorem part_open_err {cs : Codecs} {file : Bytes} (h : ∃ m, index_open false file = .err m) : Rejected cs file := by
  obtain ⟨m, h⟩ := h
  refine ⟨m, ?_⟩
  unfold part_open
  rw [h]
  rfl

/-- A read index with another checksum in the header. -/
theorem read_crc {cs : Codecs} {pre out h : Bytes} {i : Index} (hsz : i.size = out.length) (h0 : out ≠ [])
    (hl : h.length = 130) (hc : i.crc_data ≠ (CrcSpec.crc 0#32 out).toNat) :
    ∃ m, index_read cs (pre ++ (out ++ h)) i = .err m := by
  unfold index_read
  have hlen : (pre ++ (out ++ h)).length = pre.length + out.length + 130 := by simp [hl]; omega
  have hol : out.length ≠ 0 := by simpa using h0
  rw [if_neg (by omega), if_neg (by omega)]
  have hp : pread (pre ++ (out ++ h)) i.size ((pre ++ (out ++ h)).length - (130 + i.size)) = .ok out := by
    have hp := @pread_ok pre out h h0
    have h3 : (pre ++ (out ++ h)).length - (130 + i.size) = pre.length := by omega
    rw [h3, hsz, ← List.append_assoc]
    exact hp
  rw [hp]
  simp only [Res.bind_ok]
  rw [if_pos (by rw [Crc.hw_eq]; exact fun e => hc e.symm)]
  exact ⟨_, rfl⟩

/-- The header without its checksums. -/
def rest (i : Index) : Bytes :=
  le 4 i.magic ++ le 4 i.version ++ le 8 i.id_min ++ le 8 i.id_max ++ le 4 i.size
    ++ le 4 i.size_origin ++ le 8 i.size_regions ++ le 8 i.size_regions_origin ++ le 8 i.size_total
    ++ le 8 i.size_total_origin ++ le 4 i.regions ++ le 8 i.events ++ le 8 i.time_create ++ le 8 i.time_refresh
    ++ le 4 i.refreshes ++ le 8 i.lsn ++ le 1 i.compression ++ le 1 i.encryption ++ List.replicate 16 0

theorem tail_rest (i : Index) : i.tailBytes = le 4 i.crc_data ++ rest i := by
  unfold Index.tailBytes rest
  simp only [List.append_assoc]

section
attribute [local irreducible] Crc.crc32_hw le leVal

theorem rest_crc (i : Index) (a b : Nat) : rest { i with crc := a, crc_data := b } = rest i := rfl

theorem bytes_crc (i : Index) (a b : Nat) :
    ({ i with crc := a, crc_data := b } : Index).bytes = le 4 a ++ (le 4 b ++ rest i) := by
  unfold Index.bytes
  rw [tail_rest, rest_crc]

/-- Damage across the boundary of the two checksums. -/
theorem cross {cs : Codecs} {file pre out : Bytes} {i : Index} (hf : Footer file pre out i) {c' t' : Bytes}
    (hc : c'.length = 4) (ht : t'.length = 126) (hw : Window 0 i.tailBytes t') (et : i.tailBytes ≠ t') :
    Rejected cs (pre ++ (out ++ (c' ++ t'))) ∨
      (out = [] ∧ ∃ crc crc_data, part_open cs (pre ++ (out ++ (c' ++ t'))) =
        .ok ⟨pre ++ (out ++ (c' ++ t')), { i with crc, crc_data }, []⟩) := by
  have hr' : t' = t'.take 4 ++ rest i := by
    have h0 : Window 0 (le 4 i.crc_data ++ rest i) (t'.take 4 ++ t'.drop 4) := by
      rw [← tail_rest, List.take_append_drop]; exact hw
    have := window_before h0 (by rw [le_length, List.length_take]; omega) (by rw [le_length]; omega)
    conv => lhs; rw [← List.take_append_drop 4 t', ← this]
  have hd4 : (t'.take 4).length = 4 := by rw [List.length_take]; omega
  generalize t'.take 4 = d' at hr' hd4
  subst hr'
  have hh : (c' ++ (d' ++ rest i)).length = 130 := by rw [List.length_append]; omega
  have e1 := le_leVal c'
  have e2 := le_leVal d'
  rw [hc] at e1
  rw [hd4] at e2
  have l1 : leVal c' < 256 ^ 4 := hc ▸ leVal_lt c'
  have l2 : leVal d' < 256 ^ 4 := hd4 ▸ leVal_lt d'
  have hbytes : c' ++ (d' ++ rest i) = ({ i with crc := leVal c', crc_data := leVal d' } : Index).bytes := by
    rw [bytes_crc, e1, e2]
  have htail : d' ++ rest i = ({ i with crc := leVal c', crc_data := leVal d' } : Index).tailBytes := by
    rw [tail_rest, rest_crc]
    show _ = le 4 (leVal d') ++ rest i
    rw [e2]
  by_cases hm : leVal c' = (CrcSpec.crc 0#32 (d' ++ rest i)).toNat
  · have hop : index_open false (pre ++ (out ++ (c' ++ (d' ++ rest i)))) =
        .ok { i with crc := leVal c', crc_data := leVal d' } := by
      rw [hbytes, ← List.append_assoc]
      refine index_open_ok ?_ hf.magic hf.version ?_ ?_
      · exact ⟨⟨l1, l2, hf.wf.1.2.2.1, hf.wf.1.2.2.2⟩, hf.wf.2⟩
      · rw [← htail, Crc.hw_eq]; exact hm
      · rw [List.length_append]; exact hf.size_total
    by_cases h0 : out = []
    · refine .inr ⟨h0, leVal c', leVal d', ?_⟩
      unfold part_open
      rw [hop]
      simp only [Res.bind_ok]
      have : index_read cs (pre ++ (out ++ (c' ++ (d' ++ rest i)))) { i with crc := leVal c', crc_data := leVal d' }
          = .ok [] := by
        unfold index_read
        rw [if_pos (by show i.size = 0; rw [hf.size, h0]; rfl)]
      rw [this]
      rfl
    · obtain ⟨m, hm⟩ := read_crc (cs := cs) (pre := pre) (h := c' ++ (d' ++ rest i))
        (i := { i with crc := leVal c', crc_data := leVal d' }) hf.size h0 hh (by
          show leVal d' ≠ _
          rw [← Crc.hw_eq, ← hf.crc_data]
          intro e
          apply et
          rw [tail_rest, ← e, e2])
      refine .inl ⟨m, ?_⟩
      unfold part_open
      rw [hop]
      simp only [Res.bind_ok]
      rw [hm]
      rfl
  · left
    apply part_open_err
    rw [← List.append_assoc]
    apply open_crc hh
    rwa [List.take_left' hc, List.drop_left' hc]

/-- Damage inside the footer. -/
theorem damage {cs : Codecs} {file pre out : Bytes} {i : Index} (hf : Footer file pre out i) {foot : Bytes}
    (hb : CrcSpec.Burst (out ++ i.bytes) foot) :
    Rejected cs (pre ++ foot) ∨
      (out = [] ∧ ∃ crc crc_data, part_open cs (pre ++ foot) =
        .ok ⟨pre ++ foot, { i with crc, crc_data }, []⟩) := by
  obtain ⟨hne, s, hw⟩ := burst_window hb
  have hlen : foot.length = out.length + 130 := by rw [← hw.1, List.length_append, index_length]
  -- the pieces of the damaged footer
  obtain ⟨out', c', t', rfl, ho, hc, ht⟩ : ∃ out' c' t' : Bytes, foot = out' ++ (c' ++ t') ∧ out'.length = out.length ∧
      c'.length = 4 ∧ t'.length = 126 := by
    refine ⟨foot.take out.length, (foot.drop out.length).take 4, (foot.drop out.length).drop 4, ?_, ?_, ?_, ?_⟩
    · rw [List.take_append_drop, List.take_append_drop]
    · rw [List.length_take]; omega
    · rw [List.length_take, List.length_drop]; omega
    · rw [List.length_drop, List.length_drop]; omega
  have hib : i.bytes = le 4 i.crc ++ i.tailBytes := rfl
  have hcrc : leVal (le 4 i.crc) = (CrcSpec.crc 0#32 i.tailBytes).toNat := by
    rw [leVal_le_lt hf.wf.1.1, hf.crc, Crc.hw_eq]
  have hh : (c' ++ t').length = 130 := by rw [List.length_append]; omega
  have htake : (c' ++ t').take 4 = c' := List.take_left' hc
  have hdrop : (c' ++ t').drop 4 = t' := List.drop_left' hc
  rw [hib] at hw hne hb
  have hw1 := window_right hw ho.symm
  have hwt := window_right hw1 (by rw [le_length, hc])
  by_cases et : i.tailBytes = t'
  · by_cases ec : le 4 i.crc = c'
    · -- only the index data
      subst et ec
      have eo : out ≠ out' := fun e => hne (by rw [e])
      have hbo := window_burst (window_left hw ho.symm) eo
      have hop : index_open false (pre ++ (out' ++ i.bytes)) = .ok i := by
        rw [← List.append_assoc]
        exact index_open_ok hf.wf hf.magic hf.version hf.crc (by rw [hf.size_total, List.length_append]; omega)
      have hn : out' ≠ [] := by
        rintro rfl
        have : out = [] := List.eq_nil_of_length_eq_zero ho.symm
        exact eo this
      obtain ⟨m, hm⟩ := read_crc (cs := cs) (pre := pre) (hf.size.trans ho.symm) hn (index_length i) (by
        rw [hf.crc_data, Crc.hw_eq]
        intro e
        exact Crc.burst_detected 0#32 hbo (BitVec.eq_of_toNat_eq e))
      refine .inl ⟨m, ?_⟩
      unfold part_open
      rw [← hib, hop]
      simp only [Res.bind_ok]
      rw [hm]
      rfl
    · left
      apply part_open_err
      rw [← List.append_assoc]
      apply open_crc hh
      rw [htake, hdrop, ← et, ← hcrc]
      intro e
      apply ec
      rw [← le_leVal (le 4 i.crc), ← le_leVal c', e, le_length, hc]
  · by_cases ec : le 4 i.crc = c'
    · left
      apply part_open_err
      rw [← List.append_assoc]
      apply open_crc hh
      rw [htake, hdrop, ← ec, hcrc]
      intro e
      exact Crc.burst_detected 0#32 (window_burst hwt et) (BitVec.eq_of_toNat_eq e)
    · -- across the boundary
      have hw2 : Window s ((out ++ le 4 i.crc) ++ i.tailBytes) ((out' ++ c') ++ t') := by
        rw [List.append_assoc, List.append_assoc]; exact hw
      have hlc : (out ++ le 4 i.crc).length = (out' ++ c').length := by
        rw [List.length_append, List.length_append, le_length, hc, ho]
      have s1 : 8 * out.length < s := by
        apply Nat.lt_of_not_le
        intro h
        exact et (window_before hw2 hlc (by rw [List.length_append, le_length]; omega))
      have s2 : s < 8 * out.length + 32 := by
        apply Nat.lt_of_not_le
        intro h
        have := window_after (window_left hw2 hlc) (by rw [List.length_append, le_length]; omega)
        exact ec (List.append_inj this ho.symm).2
      have eo : out = out' := window_after (window_left hw ho.symm) (by omega)
      subst eo
      have ht0 : Window 0 i.tailBytes t' := by
        have e : s - 8 * out.length - 8 * (le 4 i.crc).length = 0 := by rw [le_length]; omega
        exact e ▸ hwt
      exact cross hf hc ht ht0 et

end

end Verif.C18
