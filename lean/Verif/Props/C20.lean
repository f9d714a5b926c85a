import Verif.Proofs.Wal

/-! C20: log record round trip. -/
namespace Verif.C20
open Io Wal

/-- Partial: every batch, wherever its events lie in memory, with checksums on
or off, provided that every event is followed by as much readable memory as its
key is long and, with checksums, that memory keeps its content until the batch
is written.  Missing: batches in memory where that does not hold, for which the
property is false (C20_record_false), and records above 512 MiB. -/
theorem C20_record_partial (crcOn : Bool) (lsn : Nat) (es : List LogEvent) (hl : lsn < 18446744073709551616)
    (hc : Calm crcOn es) (hf : Fits es) : RoundTrip crcOn lsn es := round_trip hl hc hf

/-- Batches without keys need nothing of the memory after them. -/
theorem C20_without_keys (crcOn : Bool) (lsn : Nat) (free : Bytes) (events : List Event)
    (hl : lsn < 18446744073709551616) (hn : events ≠ []) (hw : ∀ e ∈ events, WF e) (hk : ∀ e ∈ events, e.key = [])
    (hs : 21 + (events.map event_size).sum ≤ bufLimit) : RoundTrip crcOn lsn (layout free events) := by
  refine round_trip hl (fun x hx => ?_) (layout_fits hn hw hs)
  rw [hk _ (layout_event hx)]
  simp

/-- Without checksums a batch needs 255 more bytes in its page. -/
theorem C20_without_checksums (lsn : Nat) (free : Bytes) (events : List Event)
    (hl : lsn < 18446744073709551616) (hn : events ≠ []) (hw : ∀ e ∈ events, WF e)
    (hs : 21 + (events.map event_size).sum ≤ bufLimit)
    (hroom : (events.flatMap eventBytes).length + 255 ≤ free.length) :
    RoundTrip false lsn (layout free events) := by
  refine round_trip hl (fun x hx => ⟨?_, by simp⟩) (layout_fits hn hw hs)
  obtain ⟨h1, h2⟩ := layout_left events free hroom x hx
  have := (hw _ h2).2.2.1
  omega

/-- A batch of one event keeps the memory after it unchanged. -/
theorem C20_one_event (crcOn : Bool) (lsn : Nat) (free : Bytes) (e : Event)
    (hl : lsn < 18446744073709551616) (hw : WF e) (hs : 21 + event_size e ≤ bufLimit)
    (hroom : event_size e ≤ free.length) : RoundTrip crcOn lsn (layout free [e]) := by
  have h := eventBytes_length e
  unfold event_size at hroom
  refine round_trip hl (fun x hx => ?_) (layout_fits (by simp) (by simpa using hw) (by simpa using hs))
  simp only [layout, List.flatMap_nil, List.nil_append, List.length_nil, Nat.add_zero, List.mem_singleton] at hx
  subst hx
  simp only [List.length_drop]
  refine ⟨by omega, fun _ => ⟨by omega, trivial⟩⟩

/-- Records of dropped partitions. -/
theorem C20_drop (crcOn : Bool) (lsn id : Nat) (hl : lsn < 18446744073709551616) (hi : id < 18446744073709551616) :
    DropRoundTrip crcOn lsn id := drop_round_trip hl hi

/-- Two events with keys. -/
def two : List Event := [⟨1, 0, [97], [120]⟩, ⟨2, 0, [98], [121]⟩]

/-- The record of these two events in fresh memory, with checksums. -/
def twoRecord : Bytes :=
  match batch true 7 (layout (List.replicate 64 0) two) with
  | .ok bs => bs
  | _ => []

/-- The witness: with checksums on, a batch of two events with keys is written
but cannot be read back. The checksum of the first event covers the byte after
it, which the second event overwrites. -/
theorem C20_two_keys_rejected :
    batch true 7 (layout (List.replicate 64 0) two) = .ok twoRecord ∧
    Wal.pread true twoRecord 0 = .err "wal: crc mismatch" := by decide +kernel

/-- Another witness: the last event of a page has no memory after it. -/
theorem C20_end_of_page :
    batch false 7 (layout (List.replicate 16 0) [⟨1, 0, [97], [120]⟩]) = .ub "read past the memory of the event" := by
  decide +kernel

theorem C20_record_false : ¬ Full := by
  intro h
  obtain ⟨bs, h1, h2, _⟩ := h true 7 (List.replicate 64 0) two (by decide) (by decide)
    (by unfold Io.WF; decide) (by decide)
  rw [C20_two_keys_rejected.1] at h1
  have h1 := Res.ok.inj h1
  subst h1
  have h3 := h2 [] [] (by decide +kernel)
  simp only [List.nil_append, List.append_nil, List.length_nil] at h3
  rw [C20_two_keys_rejected.2] at h3
  cases h3

/-- The hypotheses are met by a batch of two events with keys in memory that
does not change. -/
example : Calm true [⟨⟨1, 0, [97], [120]⟩, [5], [5]⟩, ⟨⟨2, 1, [98, 99], []⟩, [0, 0], [0, 0, 1]⟩] ∧
    Fits [⟨⟨1, 0, [97], [120]⟩, [5], [5]⟩, ⟨⟨2, 1, [98, 99], []⟩, [0, 0], [0, 0, 1]⟩] := by
  unfold Calm Fits Io.WF
  decide

/-- And by two events without keys in one page. -/
example : RoundTrip true 3 (layout (List.replicate 40 9) [⟨1, 0, [], [120]⟩, ⟨2, 1, [], []⟩]) :=
  C20_without_keys true 3 _ _ (by decide) (by decide) (by unfold Io.WF; decide) (by decide) (by decide)

end Verif.C20
