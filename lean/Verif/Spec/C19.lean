import Verif.Spec.C18

/-! C19: region damage is detected on read when crc is enabled. -/
namespace Verif.C19

open Verif.Io

/-- The stored bytes of a region. -/
def stored (file : Bytes) (ir : IndexRegion) : Bytes := (file.drop ir.offset).take ir.size

/-- The open partition with other bytes in place of a region. -/
def damaged (p : PartFile) (ir : IndexRegion) (bytes : Bytes) : PartFile :=
  { p with file := p.file.take ir.offset ++ bytes ++ p.file.drop (ir.offset + ir.size) }

/-- For every file written with checksums and every region of it: reading the
region after a burst of up to 32 bits changed it fails with an error. -/
def Full : Prop :=
  ∀ (cs : Codecs) (s : WriterSource) (a : IndexWriter.StopArg) (ms : List EventMem) (w : Writer) (p : PartFile)
    (i : Nat) (ir : IndexRegion) (bytes : Bytes),
    s.crc = true → (∀ m ∈ ms, WF m.event) → ArgWF s a → writeFile cs s a ms = .ok w → w.file.length < 4294967296 →
    C15.NoGrowth cs s ms w.index_writer.data → part_open cs w.file = .ok p →
    p.index.get p.index_data i = .ok ir → CrcSpec.Burst (stored w.file ir) bytes →
    ∃ m, reader_execute cs (damaged p ir bytes) ir = .err m

end Verif.C19
