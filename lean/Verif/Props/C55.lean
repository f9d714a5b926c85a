import Verif.Spec.C55
import Verif.Props.C15

/-! C55: a new partition file contains nothing of an earlier one. -/
namespace Verif.C55
open Left Io

/-- Writes in a row put their bytes over what is there. -/
theorem writes_bytes : ∀ (l : List Bytes) (f : Fd), f.pos ≤ f.bytes.length →
    (file_writes f l).bytes = f.bytes.take f.pos ++ l.flatten ++ f.bytes.drop (f.pos + l.flatten.length)
  | [], f, _ => by simp [file_writes]
  | x :: l, f, h => by
    have hp : (file_write f x).pos ≤ (file_write f x).bytes.length := by
      simp only [file_write, List.length_append, List.length_take]
      omega
    have e1 : (file_write f x).bytes.take (file_write f x).pos = f.bytes.take f.pos ++ x := by
      simp only [file_write]
      rw [List.take_append_of_le_length (by simp; omega), List.take_of_length_le (by simp; omega)]
    have e2 : (file_write f x).bytes.drop ((file_write f x).pos + l.flatten.length) =
        f.bytes.drop (f.pos + (x :: l).flatten.length) := by
      simp only [file_write, List.flatten_cons, List.length_append]
      rw [List.drop_append, List.drop_eq_nil_of_le (by simp; omega), List.nil_append, List.drop_drop]
      congr 1
      simp only [List.length_append, List.length_take]
      omega
    rw [file_writes, writes_bytes l _ hp, e1, e2]
    simp [List.append_assoc]

/-- The bytes of a file written over `old`. -/
def over (old new : Bytes) : Bytes := new ++ old.drop new.length

theorem create_bytes (old : Option Bytes) (l : List Bytes) :
    (file_writes (file_create old) l).bytes = over (match old with | none => [] | some b => b) l.flatten := by
  cases old <;> simp [file_create, writes_bytes, over]

theorem over_length (old new : Bytes) : (over old new).length = max old.length new.length := by
  simp only [over, List.length_append, List.length_drop]
  omega

/-- The bytes of the `.incomplete` file. -/
def left (d : Dir) : Bytes := match d.incomplete with | none => [] | some b => b

theorem left_run : ∀ (h : List Step) (d : Dir), (left (run d h)).length = longest (left d).length h
  | [], _ => rfl
  | s :: h, d => by
    rw [run, left_run h]
    cases s with
    | failed l =>
      rw [longest]
      congr 1
      show (file_writes (file_create d.incomplete) l).bytes.length = _
      rw [create_bytes, over_length]
      rfl
    | done l => rfl
    | restart => rfl

theorem run_append : ∀ (h k : List Step) (d : Dir), run d (h ++ k) = run (run d h) k
  | [], _, _ => rfl
  | _ :: h, k, d => run_append h k _

theorem run_done (h : List Step) (l : List Bytes) : (run {} (h ++ [.done l])).id = some (over (left (run {} h)) l.flatten) := by
  rw [run_append]
  show some (file_writes (file_create (run {} h).incomplete) l).bytes = _
  rw [create_bytes]
  rfl

/-- Exactly when it holds: no refresh that failed since the last success or start
wrote more bytes. -/
theorem C55_exact (h : List Step) (l : List Bytes) :
    (run {} (h ++ [.done l])).id = some l.flatten ↔ longest 0 h ≤ l.flatten.length := by
  rw [run_done, Option.some.injEq]
  have hl : (left (run {} h)).length = longest 0 h := left_run h {}
  rw [← hl]
  constructor
  · intro e
    have := congrArg List.length e
    rw [over_length] at this
    omega
  · intro e
    rw [over, List.drop_eq_nil_of_le e, List.append_nil]

/-- In any case the file starts with what was written, and what follows was left
by the failed ones. -/
theorem C55_prefix (h : List Step) (l : List Bytes) :
    ∃ rest, (run {} (h ++ [.done l])).id = some (l.flatten ++ rest) ∧
      rest.length = longest 0 h - l.flatten.length := by
  refine ⟨(left (run {} h)).drop l.flatten.length, run_done h l, ?_⟩
  rw [List.length_drop, left_run h {}]
  rfl

theorem writes_size : ∀ (l : List Bytes) (f : Fd), (file_writes f l).size = f.size + l.flatten.length
  | [], f => rfl
  | x :: l, f => by
    rw [file_writes, writes_size l]
    simp only [file_write, List.flatten_cons, List.length_append]
    omega

/-- Until a restart the process knows the size of what it wrote, and what it wrote
is there: the leftover does not show. -/
theorem C55_until_restart (h : List Step) (l : List Bytes) :
    (file_writes (file_create (run {} h).incomplete) l).size = l.flatten.length ∧
    (file_writes (file_create (run {} h).incomplete) l).bytes.take
      (file_writes (file_create (run {} h).incomplete) l).size = l.flatten := by
  have e : (file_writes (file_create (run {} h).incomplete) l).size = l.flatten.length := by
    rw [writes_size]
    cases (run {} h).incomplete <;> simp [file_create]
  refine ⟨e, ?_⟩
  rw [e, create_bytes, over, List.take_left]

/-- Partial: with the limits of C15, a partition file written after any history
of failed refreshes that wrote no more than it does is read back after a restart.
Missing: see C55_false. -/
theorem C55_reads_partial (cs : Codecs) (mc : MemCmp) (s : WriterSource) (a : IndexWriter.StopArg) (ms : List EventMem)
    (hwf : ∀ m ∈ ms, WF m.event) (ha : ArgWF s a) (he : C15.EncryptionWorks cs s)
    (ht : C15.total ms ≤ 536870912) (hn : 52 * ms.length ≤ 536870912) (hr : C15.Roomy ms) :
    ∃ w, writeFile cs s a ms = .ok w ∧
      (w.file.length < 4294967296 → C15.NoGrowth cs s ms w.index_writer.data →
        ∀ h l, l.flatten = w.file → longest 0 h ≤ w.file.length →
          ∃ file, (run {} (h ++ [.done l, .restart])).id = some file ∧ Reads cs mc file (ms.map (·.event))) := by
  obtain ⟨w, h1, h2⟩ := C15.C15_round_trip_partial cs mc s a ms hwf ha he ht hn hr
  refine ⟨w, h1, fun hl hg h l e hle => ⟨w.file, ?_, h2 hl hg⟩⟩
  have := (C55_exact h l).2 (by rw [e]; exact hle)
  rw [run_append] at this ⊢
  exact this.trans (by rw [e])

/-! Witnesses: the first refresh fails, the second one writes less. -/

def cs : Codecs := ⟨fun _ => none, fun _ => none⟩
def src : WriterSource := { region_size := 40, crc := true, compression := 0, encryption := 0 }
def arg : IndexWriter.StopArg :=
  { id_min := 0, id_max := 99, refreshes := 1, time_create := 0, time_refresh := 0, lsn := 7, compression := 0, encryption := 0 }

/-- The bytes of a file with these events, nothing if it cannot be written. -/
def fileOf (ms : List EventMem) : Bytes :=
  match writeFile cs src arg ms with
  | .ok w => w.file
  | _ => []

/-- Before: events 1, 5 and 9. -/
def before : List EventMem :=
  [⟨⟨1, 0, [], [1, 1]⟩, []⟩, ⟨⟨5, 0, [], List.replicate 200 7⟩, []⟩, ⟨⟨9, 0, [], [3, 3]⟩, []⟩]

/-- Then 5 and 9 are deleted and 1 is replaced. -/
def after : List EventMem := [⟨⟨1, 0, [], [2, 2]⟩, []⟩]

/-- The first refresh wrote its file and failed then (for example in file_sync);
the second one succeeds. -/
def whole : List Step := [.failed [fileOf before], .done [fileOf after], .restart]

/-- The first refresh failed before the last byte (no space left). -/
def torn : List Step := [.failed [(fileOf before).take 300], .done [fileOf after], .restart]

/-- The first event a cursor with a start id returns from the file of a
partition. -/
def firstFrom (file : Option Bytes) (id : Nat) : Option Event :=
  match file with
  | none => none
  | some b =>
    match part_open cs b with
    | .ok p =>
      match PartIterator.open_ cs memCmpStd p (some ⟨id, 0, [], []⟩) with
      | .ok (it, _) => it.at_
      | _ => none
    | _ => none

set_option maxRecDepth 100000 in
/-- After the restart the deleted event 9 is back: the index of the first file is
still at the end. -/
theorem C55_false_deleted_returns : firstFrom (run {} whole).id 9 = some ⟨9, 0, [], [3, 3]⟩ := by decide +kernel

set_option maxRecDepth 100000 in
/-- After the restart the file cannot be opened. -/
theorem C55_false_lost :
    (match (run {} torn).id with
      | some b => match part_open cs b with
        | .err _ => true
        | _ => false
      | none => false) = true := by decide +kernel

/-- The claim does not hold of the code. -/
theorem C55_false : ¬ Full := by
  intro h
  have := h [.failed [[1, 2]]] [[3]]
  revert this
  decide

/-- Two bytes written over three left ones. -/
example : file_writes (file_create (run {} [.failed [[1, 2, 3]]]).incomplete) [[7], [8]] = ⟨[7, 8, 3], 2, 2⟩ := by decide

/-- The hypothesis of C55_exact and C55_reads_partial is met by a history with
two failed refreshes that wrote less. -/
example : longest 0 [.failed [[9, 9, 9, 9]], .done [[1]], .failed [[1, 2], [3]], .failed [[5]]] = 3 ∧
    (run {} ([.failed [[9, 9, 9, 9]], .done [[1]], .failed [[1, 2], [3]], .failed [[5]]] ++ [.done [[6, 6], [7, 7]]])).id =
      some [6, 6, 7, 7] := by decide

set_option maxRecDepth 100000 in
/-- A file of 40 byte regions and a shorter attempt before it. -/
example : (∀ m ∈ before, WF m.event) ∧ ArgWF src arg ∧ C15.EncryptionWorks cs src ∧ C15.total before ≤ 536870912 ∧
    C15.Roomy before ∧ longest 0 [.failed [fileOf after]] ≤ (fileOf before).length :=
  ⟨by unfold WF; decide +kernel, by simp [ArgWF, arg, src], by intro e he; simp [src] at he, by decide +kernel,
    by unfold C15.Roomy; decide +kernel, by decide +kernel⟩

end Verif.C55
