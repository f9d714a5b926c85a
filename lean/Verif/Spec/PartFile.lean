import Verif.Model.Writer
import Verif.Spec.Iter

/-! The partition file format, for C15 to C19. -/
namespace Verif.Io

/-- Field widths of an event. -/
def WF (e : Event) : Prop :=
  e.id < 18446744073709551616 ∧ e.flags < 256 ∧ e.key.length ≤ 255 ∧ e.key.length + e.value.length < 4294967296

/-- The bytes a region holds for an event. -/
def evBytes (m : EventMem) : Bytes := eventBytes m.event ++ m.slack.take m.event.key.length

/-- The data part of a region. -/
def dataOf (ms : List EventMem) : Bytes := ms.flatMap evBytes

/-- The offsets of a region. -/
def offsOf (ms : List EventMem) : List Nat := (List.range ms.length).map fun i => (dataOf (ms.take i)).length

/-- The bytes of a finished region. -/
def rawOf (ms : List EventMem) : Bytes :=
  le 4 (24 + 4 * ms.length + (dataOf ms).length) ++ le 4 ms.length ++ List.replicate 16 0
    ++ (offsOf ms).flatMap (le 4) ++ dataOf ms

/-- The size of a finished region. -/
def rawSize (ms : List EventMem) : Nat := 24 + 4 * ms.length + (dataOf ms).length

/-- The compressed form of `x` fits the room the compression has. -/
def CompFits (comp : Option Comp) : Bytes → Prop := fun x =>
  match comp with
  | none => True
  | some c => c.exact = true → (c.frame x).length ≤ x.length

/-- What the caller passes fits its fields. -/
def ArgWF (s : WriterSource) (a : IndexWriter.StopArg) : Prop :=
  a.id_min < 18446744073709551616 ∧ a.id_max < 18446744073709551616 ∧ a.refreshes < 4294967296 ∧
  a.time_create < 18446744073709551616 ∧ a.time_refresh < 18446744073709551616 ∧ a.lsn < 18446744073709551616 ∧
  s.compression < 256 ∧ s.encryption < 256

/-- Opening the file and scanning it reads exactly `l`. -/
def Reads (cs : Codecs) (mc : MemCmp) (file : Bytes) (l : List Event) : Prop :=
  ∃ p it, part_open cs file = .ok p ∧ PartIterator.open_ cs mc p none = .ok (it, false) ∧
    Yields PartIterator.at_ (PartIterator.next cs mc) it l

end Verif.Io
