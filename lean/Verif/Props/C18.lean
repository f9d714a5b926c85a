import Verif.Proofs.Footer
import Verif.Proofs.WriterSafe

/-! C18: the footer of a partition file. -/
namespace Verif.C18

open Verif.Io

theorem split_footer {w : Writer} {pre out : Bytes} (hf : Footer w.file pre out w.index_writer.index) :
    front w = pre ∧ footer w = out ++ w.index_writer.index.bytes := by
  unfold front footer
  rw [hf.size_regions, hf.file, List.take_left' rfl, List.drop_left' rfl]
  exact ⟨rfl, rfl⟩

/-- The written file opens.  A burst in the footer is rejected, or the file has no
events and what is read is what was written but for the two checksums.  Another
length in front of the footer is rejected.  A cut file is only accepted if the
cut comes right after bytes that are themselves a valid header for that length.
Missing for `Full`: see `C18_burst_in_empty_file` and `C18_cut_accepted`. -/
theorem C18_footer_partial (cs : Codecs) (s : WriterSource) (a : IndexWriter.StopArg) (ms : List EventMem) (w : Writer)
    (hwf : ∀ m ∈ ms, WF m.event) (ha : ArgWF s a) (h : writeFile cs s a ms = .ok w) (hl : w.file.length < 4294967296)
    (hg : C15.NoGrowth cs s ms w.index_writer.data) :
    (∃ p, part_open cs w.file = .ok p ∧ p.index = w.index_writer.index ∧ p.index_data = w.index_writer.data) ∧
    (∀ foot, CrcSpec.Burst (footer w) foot → Rejected cs (front w ++ foot) ∨
      (ms = [] ∧ ∃ p crc crc_data, part_open cs (front w ++ foot) = .ok p ∧
        p.index = { w.index_writer.index with crc, crc_data } ∧ p.index_data = w.index_writer.data)) ∧
    (∀ pre : Bytes, pre.length ≠ (front w).length → Rejected cs (pre ++ footer w)) ∧
    (∀ n p, n < w.file.length → part_open cs (w.file.take n) = .ok p → EndsWithHeader (w.file.take n)) := by
  obtain ⟨es, p, h1, _, h3, _, h5, h6, h7, ⟨h8, out, hf⟩, _, hrep⟩ := written_open h hwf hl ha hg.1 hg.2
  rw [h6] at hf
  obtain ⟨e1, e2⟩ := split_footer hf
  refine ⟨⟨p, h3, h6, h8⟩, ?_, ?_, ?_⟩
  · intro foot hb
    rw [e2] at hb
    rw [e1]
    rcases damage (cs := cs) hf hb with hd | ⟨h0, crc, crc_data, hd⟩
    · exact .inl hd
    · right
      -- without index data there are no regions
      have hd0 : w.index_writer.data = [] := by
        have hr : index_read cs w.file w.index_writer.index = .ok w.index_writer.data := by
          unfold part_open at h3
          obtain ⟨i, g1, g2⟩ := Res.bind_eq_ok.1 h3
          obtain ⟨d, g3, g4⟩ := Res.bind_eq_ok.1 g2
          have g4 := Res.ok.inj g4
          subst g4
          dsimp only at h6 h8
          rw [← h6, ← h8]
          exact g3
        unfold index_read at hr
        rw [if_pos (by rw [hf.size, h0]; rfl)] at hr
        exact (Res.ok.inj hr).symm
      have hes : es = [] := by
        have := congrArg List.length (h7.symm.trans (h8.trans hd0))
        rw [irs_length, irsFrom_length] at this
        have : 52 * es.length = 0 := this
        exact List.eq_nil_of_length_eq_zero (by omega)
      refine ⟨by rw [← h1, hes]; rfl, _, crc, crc_data, hd, rfl, hd0.symm⟩
  · intro pre' hne
    rw [e1] at hne
    rw [e2]
    have hopen : index_open false (pre' ++ (out ++ w.index_writer.index.bytes)) = .err "partition: file size mismatch" := by
      rw [← List.append_assoc]
      unfold index_open
      have hlen : (pre' ++ out ++ w.index_writer.index.bytes).length = pre'.length + out.length + 130 := by
        simp only [List.length_append, index_length]
      rw [if_neg (by omega)]
      have hp : pread (pre' ++ out ++ w.index_writer.index.bytes) 130
          ((pre' ++ out ++ w.index_writer.index.bytes).length - 130) = .ok w.index_writer.index.bytes := by
        have := @pread_ok (pre' ++ out) w.index_writer.index.bytes []
          (by intro h0; have := index_length w.index_writer.index; rw [h0] at this; simp at this)
        rw [List.append_nil, index_length] at this
        rw [hlen, Nat.add_sub_cancel, ← List.length_append]
        exact this
      rw [hp]
      simp only [Res.bind_ok]
      have hat := index_at hf.wf []
      rw [List.append_nil] at hat
      rw [hat]
      simp only [Res.bind_ok]
      have hd : w.index_writer.index.bytes.drop 4 = w.index_writer.index.tailBytes := by
        unfold Index.bytes; rw [List.drop_left' (le_length 4 _)]
      rw [hd, if_neg (by rw [hf.magic]; simp), if_neg (by rw [hf.crc]; simp),
        if_pos (by rw [hlen, hf.size_total]; simp; omega)]
    exact part_open_err ⟨_, hopen⟩
  · intro n p' _ hp
    unfold part_open at hp
    obtain ⟨i, g1, _⟩ := Res.bind_eq_ok.1 hp
    exact open_ends g1

def cs : Codecs := ⟨fun _ => none, fun _ => none⟩
def src : WriterSource := { region_size := 1000, crc := true, compression := 0, encryption := 0 }
def arg : IndexWriter.StopArg :=
  { id_min := 0, id_max := 99, refreshes := 1, time_create := 0, time_refresh := 0, lsn := 7, compression := 0, encryption := 0 }

theorem nogrowth (ms : List EventMem) (d : Bytes) : C15.NoGrowth cs src ms d := ⟨fun _ _ _ => trivial, trivial⟩

/-- Check a written file. -/
def onFile (ms : List EventMem) (f : Writer → Bool) : Bool :=
  match writeFile cs src arg ms with
  | .ok w => f w
  | _ => false

theorem written (ms : List EventMem) (f : Writer → Bool) (h : onFile ms f = true) :
    ∃ w, writeFile cs src arg ms = .ok w ∧ f w = true := by
  unfold onFile at h
  split at h
  · exact ⟨_, ‹_›, h⟩
  · cases h

def isOk (r : Res PartFile) : Bool := match r with
  | .ok _ => true
  | _ => false

theorem not_rejected {file : Bytes} (h : isOk (part_open cs file) = true) : ¬ Rejected cs file := by
  rintro ⟨m, hm⟩
  rw [hm] at h
  cases h

/-- A footer damaged in 32 consecutive bits of its two checksums. -/
def flip (foot : Bytes) : Bytes := (foot.zip (le 8 0x18298bf1a ++ List.replicate 122 0)).map fun x => x.1 ^^^ x.2

set_option maxRecDepth 100000 in
/-- A burst in the footer of a file without events goes unnoticed. -/
theorem C18_burst_in_empty_file : ∃ w, writeFile cs src arg [] = .ok w ∧ CrcSpec.Burst (footer w) (flip (footer w)) ∧
    ¬ Rejected cs (front w ++ flip (footer w)) := by
  obtain ⟨w, h1, h2⟩ := written [] (fun w => isOk (part_open cs (front w ++ flip (footer w))) &&
    decide (CrcSpec.bits (flip (footer w)) = (CrcSpec.bits (footer w)).take 1 ++
      ((CrcSpec.bits (flip (footer w))).drop 1).take 32 ++ ((CrcSpec.bits (footer w)).drop 1).drop 32) &&
    decide (((CrcSpec.bits (flip (footer w))).drop 1).take 32 ≠ ((CrcSpec.bits (footer w)).drop 1).take 32) &&
    decide ((footer w).length = 130) && decide ((flip (footer w)).length = 130)) (by decide +kernel)
  simp only [Bool.and_eq_true, decide_eq_true_eq] at h2
  obtain ⟨⟨⟨⟨g1, g2⟩, g3⟩, g4⟩, g5⟩ := h2
  refine ⟨w, h1, ⟨_, ((CrcSpec.bits (footer w)).drop 1).take 32, _, _, ?_, g2, ?_, ?_, fun e => g3 e.symm⟩, not_rejected g1⟩
  · rw [List.append_assoc, List.take_append_drop, List.take_append_drop]
  · rw [List.length_take, List.length_take, List.length_drop, List.length_drop, Crc.bits_length, Crc.bits_length, g4, g5]
  · rw [List.length_take]; exact Nat.min_le_left _ _

/-- A header of an empty file of 172 bytes. -/
def fake : Index :=
  let i : Index := { magic := 0x20849615, size_total := 172 }
  { i with crc := (Crc.crc32_hw 0#32 i.tailBytes).toNat }

/-- An event whose value is that header. -/
def carrier : List EventMem := [⟨⟨5, 0, [], fake.bytes⟩, []⟩]

set_option maxRecDepth 100000 in
/-- A file cut right after a value that looks like a header is accepted, without its event. -/
theorem C18_cut_accepted : ∃ w, writeFile cs src arg carrier = .ok w ∧ 172 < w.file.length ∧
    w.file.length < 4294967296 ∧ ¬ Rejected cs (w.file.take 172) := by
  obtain ⟨w, h1, h2⟩ := written carrier (fun w => isOk (part_open cs (w.file.take 172)) &&
    decide (172 < w.file.length) && decide (w.file.length < 4294967296)) (by decide +kernel)
  simp only [Bool.and_eq_true, decide_eq_true_eq] at h2
  exact ⟨w, h1, h2.1.2, h2.2, not_rejected h2.1.1⟩

/-- The claim does not hold for every damage. -/
theorem C18_footer_false : ¬ Full := by
  intro h
  obtain ⟨w, h1, h2, h3, h4⟩ := C18_cut_accepted
  have hwf : ∀ m ∈ carrier, WF m.event := by
    intro m hm
    unfold carrier at hm
    simp only [List.mem_singleton] at hm
    subst hm
    refine ⟨by decide, by decide, by decide, ?_⟩
    have : fake.bytes.length = 130 := index_length fake
    generalize fake.bytes = b at this ⊢
    simp [this]
  obtain ⟨_, _, _, h5⟩ := h cs src arg carrier w hwf (by simp [ArgWF, arg, src]) h1 h3 (nogrowth _ _)
  exact h4 (h5 172 h2)

example : ∃ w, writeFile cs src arg carrier = .ok w ∧ w.file.length < 4294967296 ∧ ArgWF src arg ∧
    C15.NoGrowth cs src carrier w.index_writer.data := by
  obtain ⟨w, h1, _, h2, _⟩ := C18_cut_accepted
  exact ⟨w, h1, h2, by simp [ArgWF, arg, src], nogrowth _ _⟩

end Verif.C18
