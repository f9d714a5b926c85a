import Verif.Spec.C19
import Verif.Proofs.Footer
import Verif.Proofs.WriterSafe

/-! C19: region damage is detected on read when crc is enabled. -/
namespace Verif.C19

open Verif.Io

/-- Without compression and encryption, damage is detected exactly when it
changes the first eight bytes of the region (its size and number of events); the
bytes are returned as they are otherwise.  Missing for `Full`: the recorded
checksum is never compared, see `C19_altered_value_returned` and
`C19_damage_reads_outside`. -/
theorem C19_damage_partial (cs : Codecs) (p : PartFile) (ir : IndexRegion) (bytes : Bytes)
    (hc : p.index.compression = 0) (he : p.index.encryption = 0) (hl : bytes.length = ir.size) (h8 : 8 ≤ ir.size)
    (hin : ir.offset + ir.size ≤ p.file.length) (hs : ir.size_origin < 4294967296) (hv : ir.events < 4294967296) :
    (bytes.take 8 ≠ le 4 ir.size_origin ++ le 4 ir.events →
      ∃ m, reader_execute cs (damaged p ir bytes) ir = .err m) ∧
    (bytes.take 8 = le 4 ir.size_origin ++ le 4 ir.events →
      reader_execute cs (damaged p ir bytes) ir = .ok ⟨bytes, ir.events⟩) := by
  have hp : pread (damaged p ir bytes).file ir.size ir.offset = .ok bytes := by
    have := @pread_ok (p.file.take ir.offset) bytes (p.file.drop (ir.offset + ir.size))
      (by rintro rfl; simp at hl; omega)
    rw [hl, List.length_take, Nat.min_eq_left (by omega)] at this
    exact this
  have hsplit : bytes = bytes.take 4 ++ ((bytes.drop 4).take 4 ++ bytes.drop 8) := by
    have : bytes.drop 8 = (bytes.drop 4).drop 4 := by rw [List.drop_drop]
    rw [this, List.take_append_drop, List.take_append_drop]
  have l1 : (bytes.take 4).length = 4 := by rw [List.length_take]; omega
  have l2 : ((bytes.drop 4).take 4).length = 4 := by rw [List.length_take, List.length_drop]; omega
  have h88 : bytes.take 8 = bytes.take 4 ++ (bytes.drop 4).take 4 := by
    conv => lhs; rw [hsplit, ← List.append_assoc]
    exact List.take_left' (by rw [List.length_append]; omega)
  have hr : reader_execute cs (damaged p ir bytes) ir =
      if leVal (bytes.take 4) ≠ ir.size_origin ∨ leVal ((bytes.drop 4).take 4) ≠ ir.events then
        .err "read: region meta data mismatch"
      else .ok ⟨bytes, leVal ((bytes.drop 4).take 4)⟩ := by
    unfold reader_execute
    rw [hp]
    have e1 : (damaged p ir bytes).index.encryption = 0 := he
    have e2 : (damaged p ir bytes).index.compression = 0 := hc
    rw [e1, e2]
    simp only [Res.bind_ok, if_pos]
    have g1 : getU 4 bytes = .ok (leVal (bytes.take 4), (bytes.drop 4).take 4 ++ bytes.drop 8) := by
      conv => lhs; rw [hsplit]
      exact getU_append 4 _ _ l1
    rw [g1]
    simp only [Res.bind_ok]
    rw [getU_append 4 _ _ l2]
    rfl
  rw [hr, h88]
  constructor
  · intro hne
    rw [if_pos]
    · exact ⟨_, rfl⟩
    · apply Decidable.byContradiction
      intro h
      simp only [not_or, Decidable.not_not] at h
      apply hne
      have a1 := le_leVal (bytes.take 4)
      have a2 := le_leVal ((bytes.drop 4).take 4)
      rw [l1, h.1] at a1
      rw [l2, h.2] at a2
      rw [a1, a2]
  · intro heq
    obtain ⟨a1, a2⟩ := List.append_inj heq (by rw [l1, le_length])
    have b1 : leVal (bytes.take 4) = ir.size_origin := by rw [a1, leVal_le_lt (by simpa using hs)]
    have b2 : leVal ((bytes.drop 4).take 4) = ir.events := by rw [a2, leVal_le_lt (by simpa using hv)]
    rw [if_neg (by simp [b1, b2]), b2]

def cs : Codecs := ⟨fun _ => none, fun _ => none⟩
def src : WriterSource := { region_size := 1000, crc := true, compression := 0, encryption := 0 }
def arg : IndexWriter.StopArg :=
  { id_min := 0, id_max := 99, refreshes := 1, time_create := 0, time_refresh := 0, lsn := 7, compression := 0, encryption := 0 }
def ms : List EventMem := [⟨⟨5, 0, [], [1, 2, 3]⟩, []⟩]

/-- The region with byte `k` changed to `b`. -/
def change (k : Nat) (b : UInt8) (bytes : Bytes) : Bytes := bytes.take k ++ [b] ++ bytes.drop (k + 1)

/-- Open the written file, damage its first region and read its first event. -/
def readBack (k : Nat) (b : UInt8) : Res (Bool × Event) :=
  (writeFile cs src arg ms).bind fun w => (part_open cs w.file).bind fun p =>
  (p.index.get p.index_data 0).bind fun ir =>
  (reader_execute cs (damaged p ir (change k b (stored w.file ir))) ir).bind fun rg =>
  (rg.get 0).bind fun e => .ok (decide (ir.crc = (CrcSpec.crc 0#32 (stored w.file ir)).toNat), e)

set_option maxRecDepth 100000 in
/-- The index records the checksum, the changed value is returned. -/
theorem C19_altered_value_returned : readBack 44 7 = .ok (true, ⟨5, 0, [], [1, 2, 7]⟩) := by decide +kernel

set_option maxRecDepth 100000 in
/-- Damage to an offset makes the reader leave its buffer. -/
theorem C19_damage_reads_outside : ∃ m, readBack 27 1 = .ub m :=
  ⟨"read past the end of the buffer", by decide +kernel⟩

theorem byte_burst {x : Bytes} {k : Nat} {b : UInt8} (hk : k < x.length) (hne : x[k] ≠ b) :
    CrcSpec.Burst x (change k b x) := by
  refine ⟨CrcSpec.bits (x.take k), CrcSpec.byteBits x[k], CrcSpec.byteBits b, CrcSpec.bits (x.drop (k + 1)), ?_, ?_, ?_, ?_, ?_⟩
  · conv => lhs; rw [← List.take_append_drop k x, List.drop_eq_getElem_cons hk]
    rw [Crc.bits_append, List.append_assoc]
    rfl
  · unfold change
    rw [Crc.bits_append, Crc.bits_append]
    simp [CrcSpec.bits]
  · rw [Crc.byteBits_length, Crc.byteBits_length]
  · rw [Crc.byteBits_length]; omega
  · exact fun h => hne (C18.byteBits_inj h)

set_option maxRecDepth 100000 in
/-- The claim does not hold: a changed value byte goes unnoticed. -/
theorem C19_detection_false : ¬ Full := by
  intro h
  have hr := C19_altered_value_returned
  unfold readBack at hr
  obtain ⟨w, h1, hr⟩ := Res.bind_eq_ok.1 hr
  obtain ⟨p, h2, hr⟩ := Res.bind_eq_ok.1 hr
  obtain ⟨ir, h3, hr⟩ := Res.bind_eq_ok.1 hr
  obtain ⟨rg, h4, _⟩ := Res.bind_eq_ok.1 hr
  have hcheck : ((writeFile cs src arg ms).bind fun w => (part_open cs w.file).bind fun p =>
      (p.index.get p.index_data 0).bind fun ir => .ok (decide (w.file.length < 4294967296) &&
        decide ((stored w.file ir)[44]? = some 3))) = .ok true := by decide +kernel
  rw [h1, Res.bind_ok, h2, Res.bind_ok, h3, Res.bind_ok] at hcheck
  have hcheck := Res.ok.inj hcheck
  simp only [Bool.and_eq_true, decide_eq_true_eq] at hcheck
  obtain ⟨hk, hv⟩ := List.getElem?_eq_some_iff.1 hcheck.2
  obtain ⟨m, hm⟩ := h cs src arg ms w p 0 ir _ rfl (by simp [ms, WF]) (by simp [ArgWF, arg, src]) h1 hcheck.1
    ⟨fun _ _ _ => trivial, trivial⟩ h2 h3 (byte_burst hk (b := 7) (by rw [hv]; decide))
  rw [h4] at hm
  cases hm

example : ∃ (p : PartFile) (ir : IndexRegion) (bytes : Bytes), p.index.compression = 0 ∧ p.index.encryption = 0 ∧
    bytes.length = ir.size ∧ 8 ≤ ir.size ∧ ir.offset + ir.size ≤ p.file.length ∧
    bytes.take 8 = le 4 ir.size_origin ++ le 4 ir.events :=
  ⟨⟨rawOf ms ++ [0], {}, []⟩, { offset := 0, crc := 0, min := 5, max := 5, size := 45, size_origin := 45, events := 1 },
    rawOf ms, by decide +kernel⟩

end Verif.C19
