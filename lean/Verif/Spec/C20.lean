import Verif.Spec.Wal

/-! C20: a batch read back from the log is the batch. -/
namespace Verif.C20
open Io Wal

/-- The batch of events is written under the number `lsn`, and wherever the
record lies in a log file it is accepted and gives the number, the count and the
events. -/
def RoundTrip (crcOn : Bool) (lsn : Nat) (es : List LogEvent) : Prop :=
  ∃ bs, batch crcOn lsn es = .ok bs ∧
    (∀ before after : Bytes, before.length + bs.length < 4294967296 →
      Wal.pread crcOn (before ++ bs ++ after) before.length = .ok (some bs)) ∧
    decode bs = .ok (.write lsn es.length (es.map (·.event)))

/-- The memory of a batch whose events are allocated one after the other in the
free part `free` of a heap page (event_allocate, engine/io/event.h:80-87): when
an event is added to the log it is followed by what was there before, when the
batch is written by the events after it. -/
def layout (free : Bytes) : List Event → List LogEvent
  | [] => []
  | e :: es =>
    ⟨e, free.drop (eventBytes e).length,
      es.flatMap eventBytes ++ free.drop ((eventBytes e).length + (es.flatMap eventBytes).length)⟩ ::
    layout (free.drop (eventBytes e).length) es

/-- The full property: every batch laid out in a page that has room for it. -/
def Full : Prop :=
  ∀ (crcOn : Bool) (lsn : Nat) (free : Bytes) (events : List Event),
    lsn < 18446744073709551616 → events ≠ [] → (∀ e ∈ events, WF e) →
    (events.flatMap eventBytes).length ≤ free.length →
    RoundTrip crcOn lsn (layout free events)

/-- The record of a dropped partition reads back. -/
def DropRoundTrip (crcOn : Bool) (lsn id : Nat) : Prop :=
  (∀ before after : Bytes, before.length + 29 < 4294967296 →
    Wal.pread crcOn (before ++ dropRecord crcOn lsn id ++ after) before.length = .ok (some (dropRecord crcOn lsn id))) ∧
  decode (dropRecord crcOn lsn id) = .ok (.drop lsn id)

end Verif.C20
