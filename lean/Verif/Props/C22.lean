import Verif.Proofs.WalRead

/-! C22: reading the log returns every record from a position, in order. -/
namespace Verif.C22
open Io Wal

/-- For every division of the record sequence into files of at most 3 GiB, with
incompletely written bytes at the end of any of them, reading from 0 or from
any number at or after the first file returns exactly the records from there
on, in order, and ends without an error.  Missing to the full property: start
numbers below the first file (see `C22_below_first_false`) and files from
4 GiB on (see `C22_long_file`). -/
theorem C22_read_partial (crcOn : Bool) (fs : List LogFile) (d : Dir) (lsn : Nat)
    (hwf : LogWF crcOn fs) (hd : Holds crcOn fs d) (hs : Small d)
    (hl : lsn = 0 ∨ ∀ f ∈ fs.head?, f.id ≤ lsn) : ReadsFrom crcOn fs d lsn :=
  read_spec hwf hd hs hl

/-- In particular a restart, which always reads from 0, sees all records. -/
theorem C22_replay (crcOn : Bool) (fs : List LogFile) (d : Dir)
    (hwf : LogWF crcOn fs) (hd : Holds crcOn fs d) (hs : Small d) (fuel : Nat) (hf : (entriesOf fs).length < fuel) :
    readLog crcOn d 0 fuel = .ok ((entriesOf fs).map (·.record)) := by
  have := read_spec hwf hd hs (.inl rfl) fuel hf
  rw [this, List.filter_eq_self.2 (by simp)]

/-- Two files: a batch and a drop in the first, a torn record after the second
batch. -/
def sample : List LogFile :=
  [⟨1, [.write 1 [⟨⟨3, 0, [], [7, 7]⟩, [], []⟩], .drop 2 0], []⟩,
   ⟨3, [.write 3 [⟨⟨4, 1, [], []⟩, [], []⟩]], [0, 0, 0, 0, 4]⟩]

def file1 : Bytes :=
  [0, 0, 0, 0, 1, 0, 0, 0, 0, 0, 0, 0, 0, 1, 0, 0, 0, 37, 0, 0, 0, 3, 0, 0, 0, 0, 0, 0, 0, 0, 0, 2, 0, 0, 0, 7, 7,
   0, 0, 0, 0, 2, 0, 0, 0, 0, 0, 0, 0, 1, 0, 0, 0, 0, 29, 0, 0, 0, 0, 0, 0, 0, 0, 0, 0, 0]

def file2 : Bytes :=
  [0, 0, 0, 0, 3, 0, 0, 0, 0, 0, 0, 0, 0, 1, 0, 0, 0, 35, 0, 0, 0, 4, 0, 0, 0, 0, 0, 0, 0, 1, 0, 0, 0, 0, 0]

theorem sample_wf : LogWF false sample := by
  refine ⟨by unfold Ordered sample; decide, ?_⟩
  intro f hf
  simp only [sample, List.mem_cons, List.not_mem_nil, or_false] at hf
  rcases hf with rfl | rfl
  · refine ⟨?_, .inl rfl⟩
    intro e he
    simp only [List.mem_cons, List.not_mem_nil, or_false] at he
    rcases he with rfl | rfl <;> simp [Entry.Good, Calm, Fits, WF, recSize, bufLimit, event_size]
  · refine ⟨?_, .inr ⟨.drop 4 9, dropRecord false 4 9, 5, by simp [Entry.Good], rfl, by decide, by decide⟩⟩
    intro e he
    simp only [List.mem_cons, List.not_mem_nil, or_false] at he
    subst he
    simp [Entry.Good, Calm, Fits, WF, recSize, bufLimit, event_size]

/-- Non-vacuity: the sample is written and read. -/
example : LogWF false sample ∧ ∃ d, Holds false sample d ∧ Small d :=
  ⟨sample_wf, ⟨[1, 3], [(1, file1), (3, file2 ++ [0, 0, 0, 0, 4])]⟩,
    ⟨⟨[3], [(3, file2 ++ [0, 0, 0, 0, 4])]⟩, file1, ⟨⟨[], []⟩, file2, ⟨rfl, rfl⟩, by decide +kernel, rfl, rfl⟩,
      by decide +kernel, rfl, by simp⟩, by unfold Small; decide⟩

/-- The full property is false: from a number below the id of the first file
nothing is read at all, although every record is at or after that number. -/
theorem C22_below_first_false : ¬ Full := by
  intro h
  have := h false [⟨5, [.drop 5 0], []⟩] ⟨[5], [(5, dropRecord false 5 0)]⟩ 3
    ⟨by unfold Ordered; decide, by simp [Entry.Good, TornWF]⟩
    ⟨⟨[], []⟩, dropRecord false 5 0, ⟨rfl, rfl⟩, by decide, rfl, by simp⟩ (by decide) 5 (by decide)
  revert this
  decide +kernel

/-- At the end of a log file of almost 4 GiB the sum of offset and header size
wraps, so that the end is not seen and reading fails. -/
theorem C22_long_file (crcOn : Bool) (file : Bytes) (h1 : 4294967275 ≤ file.length) (h2 : file.length < 4294967296) :
    Wal.pread crcOn file file.length = .err "file: pread error" := by
  unfold Wal.pread eof
  rw [if_neg (by simp; omega)]
  unfold Io.pread
  rw [if_pos (.inr (by omega))]
  rfl

example : ∃ file : Bytes, 4294967275 ≤ file.length ∧ file.length < 4294967296 :=
  have h : ∀ n, 4294967275 ≤ n → n < 4294967296 → ∃ file : Bytes, 4294967275 ≤ file.length ∧ file.length < 4294967296 :=
    fun n h1 h2 => ⟨List.replicate n 0, by rw [List.length_replicate]; exact h1, by rw [List.length_replicate]; exact h2⟩
  h 4294967280 (by omega) (by omega)

end Verif.C22
