import Verif.Spec.PartFile

/-! C15: partition file round trip. -/
namespace Verif.C15

open Verif.Io

/-- What the file needs for the events before compression. -/
def total (ms : List EventMem) : Nat :=
  24 + (ms.map fun m => 18 + 2 * m.event.key.length + m.event.value.length).sum

/-- The encryption of the storage, if any, encrypts everything. -/
def EncryptionWorks (cs : Codecs) (s : WriterSource) : Prop :=
  ∀ e, (if s.encryption = 0 then none else cs.encr s.encryption) = some e → ∀ n x, ∃ y, e.encrypt n x = .ok y

/-- Within the size limits of the format, for every storage setting and every
memory the events lie in: the file is written, and unless it outgrows 32-bit
offsets, opening and scanning it returns the events. -/
def Full : Prop :=
  ∀ (cs : Codecs) (mc : MemCmp) (s : WriterSource) (a : IndexWriter.StopArg) (ms : List EventMem),
    (∀ m ∈ ms, WF m.event) → ArgWF s a → EncryptionWorks cs s → total ms ≤ 536870912 → 52 * ms.length ≤ 536870912 →
    ∃ w, writeFile cs s a ms = .ok w ∧ (w.file.length < 4294967296 → Reads cs mc w.file (ms.map (·.event)))

/-- At least as many bytes as the key has follow every event in memory. -/
def Roomy (ms : List EventMem) : Prop := ∀ m ∈ ms, m.event.key.length ≤ m.slack.length

/-- No piece of the file grows when compressed by a compression that reserves no
room for that: any run of events, and the index data. -/
def NoGrowth (cs : Codecs) (s : WriterSource) (ms : List EventMem) (index : Bytes) : Prop :=
  (∀ r, r <:+: ms → r ≠ [] → CompFits (if s.compression = 0 then none else cs.comp s.compression) (rawOf r)) ∧
  CompFits (if s.compression = 0 then none else cs.comp s.compression) index

end Verif.C15
