import Verif.Model.Wal
import Verif.Spec.PartFile

/-! The log, for C20 to C23. -/
namespace Verif.Wal
open Io

/-- The size of the record of a batch. -/
def recSize (es : List LogEvent) : Nat := 21 + (es.map fun e => event_size e.event).sum

/-- The events are followed by as much readable memory as their keys are long,
and with checksums that memory does not change between checksum and write. -/
def Calm (crcOn : Bool) (es : List LogEvent) : Prop :=
  ∀ e ∈ es, e.event.key.length ≤ e.left.length ∧
    (crcOn = true → e.event.key.length ≤ e.seen.length ∧
      e.seen.take e.event.key.length = e.left.take e.event.key.length)

/-- A batch that makes a record: not empty, fields within their width, and a
record no larger than a read buffer may be. -/
def Fits (es : List LogEvent) : Prop := es ≠ [] ∧ (∀ e ∈ es, WF e.event) ∧ recSize es ≤ bufLimit

end Verif.Wal
