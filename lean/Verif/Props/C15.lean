import Verif.Spec.C15
import Verif.Proofs.WriterSafe
import Verif.Proofs.Key

/-! C15: partition file round trip. -/
namespace Verif.C15

open Verif.Io

theorem rawSize_le (ms : List EventMem) : rawSize ms ≤ total ms := by
  unfold rawSize total dataOf
  induction ms with
  | nil => simp
  | cons m ms ih =>
    simp only [List.flatMap_cons, List.length_append, List.length_cons, List.map_cons, List.sum_cons] at ih ⊢
    have : (evBytes m).length ≤ 14 + 2 * m.event.key.length + m.event.value.length := by
      unfold evBytes
      rw [List.length_append, eventBytes_length, List.length_take]
      omega
    omega

theorem flat_events (es : List Ent) :
    (es.map fun e => e.ms.map (·.event)).flatten = (es.flatMap (·.ms)).map (·.event) := by
  induction es with
  | nil => rfl
  | cons e es ih => simp only [List.map_cons, List.flatten_cons, ih, List.flatMap_cons, List.map_append]

/-- The round trip holds when the memory after each event can be read, and
nothing grows by compression.  Missing for `Full`: both are needed, see
`C15_needs_memory_after_the_event` and `C15_growing_data_is_lost`. -/
theorem C15_round_trip_partial (cs : Codecs) (mc : MemCmp) (s : WriterSource) (a : IndexWriter.StopArg)
    (ms : List EventMem) (hwf : ∀ m ∈ ms, WF m.event) (ha : ArgWF s a) (he : EncryptionWorks cs s)
    (ht : total ms ≤ 536870912) (hn : 52 * ms.length ≤ 536870912) (hr : Roomy ms) :
    ∃ w, writeFile cs s a ms = .ok w ∧
      (w.file.length < 4294967296 → NoGrowth cs s ms w.index_writer.data → Reads cs mc w.file (ms.map (·.event))) := by
  obtain ⟨w, h⟩ := write_safe (cs := cs) (s := s) a he (fun m hm => ⟨hwf m hm, hr m hm⟩) hn
    (Nat.le_trans (rawSize_le ms) ht)
  refine ⟨w, h, fun hl hg => ?_⟩
  obtain ⟨es, p, h1, _, h3, _, _, _, _, _, _, hrep⟩ := written_open h hwf hl ha hg.1 hg.2
  obtain ⟨it, h4, h5⟩ := scan_ok (mc := mc) hrep
  refine ⟨p, it, h3, h4, ?_⟩
  have : (es.map fun e => e.ms.map (·.event)).flatten = ms.map (·.event) := by
    rw [← h1, flat_events]
  rw [← this]
  exact h5

/-- Without compression, or with one that reserves enough room (LZ4), and
without keys, the round trip holds as claimed. -/
theorem C15_round_trip_without_keys (cs : Codecs) (mc : MemCmp) (s : WriterSource) (a : IndexWriter.StopArg)
    (ms : List EventMem) (hwf : ∀ m ∈ ms, WF m.event) (ha : ArgWF s a) (he : EncryptionWorks cs s)
    (ht : total ms ≤ 536870912) (hn : 52 * ms.length ≤ 536870912) (hk : ∀ m ∈ ms, m.event.key = [])
    (hc : s.compression = 0 ∨ ∃ c, cs.comp s.compression = some c ∧ c.exact = false) :
    ∃ w, writeFile cs s a ms = .ok w ∧ (w.file.length < 4294967296 → Reads cs mc w.file (ms.map (·.event))) := by
  obtain ⟨w, h, hr⟩ := C15_round_trip_partial cs mc s a ms hwf ha he ht hn (fun m hm => by rw [hk m hm]; simp)
  refine ⟨w, h, fun hl => hr hl ?_⟩
  have : ∀ x, CompFits (if s.compression = 0 then none else cs.comp s.compression) x := by
    intro x
    rcases hc with hc | ⟨c, hc, hx⟩
    · rw [if_pos hc]; trivial
    · split
      · trivial
      · rw [hc]; intro h; rw [hx] at h; cases h
  exact ⟨fun r _ _ => this _, this _⟩

/-- An event with a key at the very end of its heap page cannot be written:
region_writer_add copies event_size bytes, which counts the key twice. -/
theorem C15_needs_memory_after_the_event (cs : Codecs) (s : WriterSource) (a : IndexWriter.StopArg) (m : EventMem)
    (h : m.slack.length < m.event.key.length) (hk : m.event.key.length ≤ 255) :
    ∃ what, writeFile cs s a [m] = .ub what := by
  refine ⟨"read past the memory of the event", ?_⟩
  unfold writeFile Writer.addAll Writer.add
  have hl : (Writer.start cs s).is_region_limit = true := rfl
  rw [if_pos hl]
  have hst : (Writer.start cs s).region_writer.started = false := rfl
  rw [if_neg (by rw [hst]; simp)]
  simp only [Res.bind_ok]
  have hsr : (Writer.start cs s).stop_region = .ok (Writer.start cs s) := rfl
  rw [if_neg (by simp), hsr]
  simp only [Res.bind_ok]
  unfold RegionWriter.add
  have hm : (Writer.start cs s).start_region.region_writer.metaBytes.length = 24 := rfl
  rw [if_neg (by rw [hm]; decide)]
  unfold copyEvent
  rw [if_pos h]
  rfl

/-- A compression that stores a byte in front of its input and, like zstd,
reserves only the size of the input. -/
def growing : Comp where
  frame x := 0 :: x
  decompress d n := match d with
    | [] => .err "empty"
    | _ :: x => if x.length = n then .ok x else .err "incomplete frame"
  exact := true
  law x := by simp
  frame_ne x := by simp

/-- A storage with that compression. -/
def cs : Codecs where
  comp _ := some growing
  encr _ := none

def src : WriterSource := { region_size := 128000, crc := true, compression := 2, encryption := 0 }
def arg : IndexWriter.StopArg :=
  { id_min := 0, id_max := 99, refreshes := 1, time_create := 0, time_refresh := 0, lsn := 7, compression := 0, encryption := 0 }

set_option maxRecDepth 100000 in
/-- Data that does not shrink is lost: the file is written without an error and
cannot be opened any more. -/
theorem C15_growing_data_is_lost :
    (match writeFile cs src arg [⟨⟨3, 0, [], [1, 2]⟩, []⟩] with
      | .ok w => match part_open cs w.file with
        | .err _ => true
        | _ => false
      | _ => false) = true := by decide +kernel

/-- The claim does not hold of the code. -/
theorem C15_round_trip_false : ¬ Full := by
  intro h
  obtain ⟨w, h1, _⟩ := h cs memCmpStd { src with compression := 0 } arg [⟨⟨3, 0, [5], [1, 2]⟩, []⟩]
    (by simp [WF]) (by simp [ArgWF, arg, src]) (by intro e he; simp [src] at he) (by decide) (by decide)
  obtain ⟨_, h2⟩ := C15_needs_memory_after_the_event cs { src with compression := 0 } arg
    ⟨⟨3, 0, [5], [1, 2]⟩, []⟩ (by decide) (by decide)
  rw [h1] at h2
  cases h2

/-- Three events with and without keys, 40 byte regions. -/
def sample : List EventMem :=
  [⟨⟨3, 0, [5], [1, 2]⟩, [9, 9]⟩, ⟨⟨3, 0, [6], []⟩, [9]⟩, ⟨⟨8, 0, [], [7, 7, 7]⟩, []⟩]

def src40 : WriterSource := { region_size := 40, crc := true, compression := 0, encryption := 0 }

example : (∀ m ∈ sample, WF m.event) ∧ ArgWF src40 arg ∧ EncryptionWorks cs src40 ∧ total sample ≤ 536870912 ∧
    52 * sample.length ≤ 536870912 ∧ Roomy sample :=
  ⟨by simp [sample, WF], by simp [ArgWF, arg, src40], by intro e he; simp [src40] at he, by decide, by decide,
    by simp [sample, Roomy]⟩

/-- The file of the sample has two regions and stays small. -/
example : (match writeFile cs src40 arg sample with
    | .ok w => w.index_writer.index.regions == 2 && w.file.length < 400
    | _ => false) = true := by decide +kernel

example (i : Bytes) : NoGrowth cs src40 sample i := ⟨fun _ _ _ => trivial, trivial⟩

end Verif.C15
