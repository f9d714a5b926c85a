import Verif.Spec.C15
import Verif.Spec.Crc

/-! C18: the footer of a partition file. -/
namespace Verif.C18

open Verif.Io

/-- The part of a written file in front of the footer. -/
def front (w : Writer) : Bytes := w.file.take w.index_writer.index.size_regions

/-- The footer: index data and header. -/
def footer (w : Writer) : Bytes := w.file.drop w.index_writer.index.size_regions

/-- The file is rejected with an error. -/
def Rejected (cs : Codecs) (file : Bytes) : Prop := ∃ m, part_open cs file = .err m

/-- For every written file: it opens with the written index; any burst in the
footer, any other length in front of the footer and any cut is rejected. -/
def Full : Prop :=
  ∀ (cs : Codecs) (s : WriterSource) (a : IndexWriter.StopArg) (ms : List EventMem) (w : Writer),
    (∀ m ∈ ms, WF m.event) → ArgWF s a → writeFile cs s a ms = .ok w → w.file.length < 4294967296 →
    C15.NoGrowth cs s ms w.index_writer.data →
    (∃ p, part_open cs w.file = .ok p ∧ p.index = w.index_writer.index ∧ p.index_data = w.index_writer.data) ∧
    (∀ foot, CrcSpec.Burst (footer w) foot → Rejected cs (front w ++ foot)) ∧
    (∀ pre : Bytes, pre.length ≠ (front w).length → Rejected cs (pre ++ footer w)) ∧
    (∀ n, n < w.file.length → Rejected cs (w.file.take n))

/-- What a file must end with to be accepted: a header with the right checksum
that names the size of the file. -/
def EndsWithHeader (file : Bytes) : Prop :=
  ∃ pre h, file = pre ++ h ∧ h.length = 130 ∧
    leVal (h.take 4) = (CrcSpec.crc 0#32 (h.drop 4)).toNat ∧
    leVal ((h.drop 8).take 4) = 0x20849615 ∧ leVal ((h.drop 56).take 8) = file.length

end Verif.C18
