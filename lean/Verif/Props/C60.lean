import Verif.Proofs.C60
import Verif.Props.C23

/-! C60: a write that was reported as failed leaves no trace. -/
namespace Verif.C60
open Wal C22
open Io hiding Holds
open C23 (Kind Running Batches batch1 files1 state1 running1 batch1_good bytes2)

/-- It holds when failed writes fail before their first byte, as with a full
disk or an I/O error at the start: any number of them, mixed with writes that
succeed, rotations and restarts.  Missing to the full property: writes that fail
after a part of their bytes (see `C60_later_lost`), or in the sync (see
`C60_sync_returns`); drop records among those that succeed (see C21). -/
theorem C60_before_partial (crcOn : Bool) (base fuel : Nat) (fs : List LogFile) (s : State) (ops : List Op)
    (h : Running crcOn fs s) (hr : InRange fs s ops fuel) (hb : base ≤ s.lsn) (hg : ∀ op ∈ ops, opGood crcOn op)
    (hem : ∀ op ∈ ops, opEmpty op) (hops : ∀ op ∈ ops, opBatch op) (hba : Batches (entriesOf fs))
    (hs : StaysSmall crcOn base fuel s ops) :
    story crcOn base fuel s ops = .ok ((entriesOf fs ++ logged s.lsn ops).map (·.record)) := by
  obtain ⟨fs', s', e1, e2, e3, e4, e5⟩ := run_spec ops fs s h hr hb hg hops hem hba hs
  have hll := logged_length ops s.lsn
  have := hr.2
  obtain ⟨s2, h5, -, -⟩ := C23.step_reopen (base := base) (fuel := fuel) e2 (hs ops [] s' (by simp) e1) e5
    (by rw [e3]; simp; omega) e4
  unfold story
  rw [e1]
  simp only [Res.bind_ok]
  rw [h5, e3]
  rfl

/-- A single write that fails after a part of its bytes is not seen by a restart
that comes before any other write. -/
theorem C60_torn (crcOn : Bool) (base fuel : Nat) (fs : List LogFile) (s : State) (k : Kind) (b : Bytes) (n : Nat)
    (h : Running crcOn fs s) (hr : InRange fs s [] fuel) (hk : k.Good crcOn)
    (hb : (k.entry (s.lsn + 1)).bytes crcOn = .ok b) (hn : n < b.length)
    (hs : StaysSmall crcOn base fuel s [.fail k n]) :
    story crcOn base fuel s [.fail k n] = .ok ((entriesOf fs).map (·.record)) := by
  obtain ⟨d, h1, h2⟩ := C23.C23_recovered crcOn base fuel fs s k b n h hr hk hb hn
  obtain ⟨f, bs, -, -, -, hcur, -⟩ := h.2.2.2
  obtain ⟨s', h3, h4⟩ := fail_tear (r := fun l => (k.entry l).bytes crcOn) hb hcur n
  rw [h4] at h1
  have := Res.ok.inj h1
  subst this
  have hrun : run crcOn base fuel s [.fail k n] = .ok s' := by simp only [run, h3, Res.bind_ok]
  obtain ⟨s1, h5, -⟩ := h2 (hs [.fail k n] [] s' (by simp) hrun)
  unfold story
  rw [hrun]
  simp only [Res.bind_ok]
  rw [h5]
  rfl

/-- A write whose sync failed is always found by the restart, though the caller
was told that it failed and its events were taken back from memory. -/
theorem C60_sync_returns (crcOn : Bool) (base fuel : Nat) (fs : List LogFile) (s : State) (k : Kind) (b : Bytes)
    (n : Nat) (h : Running crcOn fs s) (hr : InRange fs s [.fail k n] fuel) (hbase : base ≤ s.lsn) (hk : k.Good crcOn)
    (hkb : k.isBatch) (hba : Batches (entriesOf fs))
    (hb : (k.entry (s.lsn + 1)).bytes crcOn = .ok b) (hn : b.length ≤ n)
    (hs : StaysSmall crcOn base fuel s [.fail k n]) :
    story crcOn base fuel s [.fail k n] = .ok ((entriesOf fs ++ [k.entry (s.lsn + 1)]).map (·.record)) := by
  obtain ⟨hr1, hr2⟩ := hr
  simp only [List.length_cons, List.length_nil] at hr1 hr2
  obtain ⟨f, bs, -, -, -, hcur, -⟩ := id h.2.2.2
  obtain ⟨s', s2, h1, h2, h3⟩ := fail_write (r := fun l => (k.entry l).bytes crcOn) hb hcur hn
  obtain ⟨fs', s3, g1, g2, g3, g4⟩ := C23.step_log h hk (by omega)
  rw [h2] at g1
  have := Res.ok.inj g1
  subst this
  have hrun : run crcOn base fuel s [.fail k n] = .ok s' := by simp only [run, h1, Res.bind_ok]
  have hba' : Batches (entriesOf fs') := by
    rw [g3]
    intro e he
    rcases List.mem_append.1 he with he | he
    · exact hba e he
    · simp only [List.mem_cons, List.not_mem_nil, or_false] at he
      cases k with
      | batch es => exact ⟨_, _, he⟩
      | drop id => simp [Kind.isBatch] at hkb
  have hsm : Small s2.dir := h3 ▸ hs [.fail k n] [] s' (by simp) hrun
  obtain ⟨s4, h5, -, -⟩ := C23.step_reopen (base := base) (fuel := fuel) g2 hsm (by omega) (by rw [g3]; simp; omega) hba'
  unfold story
  rw [hrun]
  simp only [Res.bind_ok]
  rw [h3, h5, g3]
  rfl

theorem batches1 : Batches (entriesOf files1) := by
  intro e he
  simp only [files1, entriesOf, List.flatMap_cons, List.flatMap_nil, List.append_nil, List.mem_cons, List.not_mem_nil, or_false] at he
  exact ⟨_, _, he⟩

/-- Every prefix of the operations leads to small files. -/
theorem staysSmall_of {crcOn : Bool} {base fuel : Nat} {s : State} {ops : List Op}
    (h : ∀ i ≤ ops.length, ∃ s1, run crcOn base fuel s (ops.take i) = .ok s1 ∧ Small s1.dir) :
    StaysSmall crcOn base fuel s ops := by
  intro o1 o2 t ho hrun
  obtain ⟨s1, h1, h2⟩ := h o1.length (by rw [ho]; simp)
  rw [ho, List.take_left, hrun] at h1
  exact Res.ok.inj h1 ▸ h2

/-- Non-vacuity of `C60_before_partial`. -/
example : story false 0 10 state1 [.fail batch1 0, .log batch1, .reopen, .fail batch1 0] =
    .ok ((entriesOf files1 ++ logged 1 [.fail batch1 0, .log batch1, .reopen, .fail batch1 0]).map (·.record)) := by
  refine C60_before_partial false 0 10 files1 state1 _ running1 (by unfold InRange; decide) (by decide) ?_ ?_ (by decide)
    batches1 (staysSmall_of ?_)
  · intro op ho
    simp only [List.mem_cons, List.not_mem_nil, or_false] at ho
    rcases ho with rfl | rfl | rfl | rfl
    · exact batch1_good false
    · exact batch1_good false
    · trivial
    · exact batch1_good false
  · intro op ho
    simp only [List.mem_cons, List.not_mem_nil, or_false] at ho
    rcases ho with rfl | rfl | rfl | rfl <;> trivial
  · intro i hi
    let s2 : State := ⟨⟨[1], [(1, C23.bytes1 ++ bytes2)]⟩, some ⟨1, 74, 74⟩, 2⟩
    match i, hi with
    | 0, _ => exact ⟨state1, by decide +kernel, by unfold Small; decide⟩
    | 1, _ => exact ⟨state1, by decide +kernel, by unfold Small; decide⟩
    | 2, _ => exact ⟨s2, by decide +kernel, by unfold Small; decide⟩
    | 3, _ => exact ⟨s2, by decide +kernel, by unfold Small; decide⟩
    | 4, _ => exact ⟨s2, by decide +kernel, by unfold Small; decide⟩
    | n + 5, h => exact absurd h (by simp)

/-- Non-vacuity of `C60_torn`. -/
example : story false 0 10 state1 [.fail batch1 22] = .ok ((entriesOf files1).map (·.record)) := by
  refine C60_torn false 0 10 files1 state1 batch1 bytes2 22 running1 (by unfold InRange; decide)
    (batch1_good false) (by decide +kernel) (by decide) (staysSmall_of ?_)
  intro i hi
  match i, hi with
  | 0, _ => exact ⟨state1, by decide +kernel, by unfold Small; decide⟩
  | 1, _ => exact ⟨⟨⟨[1], [(1, C23.bytes1 ++ bytes2.take 22)]⟩, some ⟨1, 59, 37⟩, 1⟩, by decide +kernel, by unfold Small; decide⟩
  | n + 2, h => exact absurd h (by simp)

/-- Non-vacuity of `C60_sync_returns`. -/
example : story false 0 10 state1 [.fail batch1 37] =
    .ok ((entriesOf files1 ++ [batch1.entry 2]).map (·.record)) := by
  refine C60_sync_returns false 0 10 files1 state1 batch1 bytes2 37 running1 (by unfold InRange; decide) (by decide)
    (batch1_good false) (by decide) batches1 (by decide +kernel) (by decide) (staysSmall_of ?_)
  intro i hi
  match i, hi with
  | 0, _ => exact ⟨state1, by decide +kernel, by unfold Small; decide⟩
  | 1, _ => exact ⟨⟨⟨[1], [(1, C23.bytes1 ++ bytes2)]⟩, some ⟨1, 74, 74⟩, 1⟩, by decide +kernel, by unfold Small; decide⟩
  | n + 2, h => exact absurd h (by simp)

/-- A write that failed half way spoils the log for those after it: the next one
is acknowledged and written behind the fragment, and with checksums the database
cannot be opened any more. -/
theorem C60_later_lost :
    (openLog [] 0).bind (fun s => story true 0 10 s [.log batch1, .fail batch1 22, .log batch1]) =
      .err "wal: crc mismatch" := by
  decide +kernel

/-- Without checksums the fragment makes the restart read outside the record. -/
theorem C60_later_outside :
    (openLog [] 0).bind (fun s => story false 0 10 s [.log batch1, .fail batch1 10, .log batch1]) =
      .ub "wal_file_pread: negative size" := by
  decide +kernel

/-- After a failed sync the next write gets the same number, so two different
records with one number are in the log and both come back. -/
theorem C60_number_twice :
    ((openLog [] 0).bind fun s => story true 0 10 s [.log batch1, .fail (.batch [⟨⟨4, 0, [], [8]⟩, [], []⟩]) 100, .log batch1]) =
      .ok ([batch1.entry 1, (Kind.batch [⟨⟨4, 0, [], [8]⟩, [], []⟩]).entry 2, batch1.entry 2].map (·.record)) := by
  decide +kernel

/-- A failed sync of the first record of a file, then a rotation: the new file
has the number of the current one, which is opened again at its beginning. -/
theorem C60_rotated_over :
    ((openLog [] 0).bind fun s => run false 0 10 s [.fail batch1 37, .rotate 0]) =
      .ok ⟨⟨[1, 1], [(1, C23.bytes1)]⟩, some ⟨1, 0, 0⟩, 0⟩ := by
  decide +kernel

/-- So the full property is false. -/
theorem C60_false : ¬ Full := by
  intro h
  have := h false 0 10 files1 state1 [.fail batch1 37] running1 (by unfold InRange; decide) (by decide) (by
      intro op ho
      simp only [List.mem_cons, List.not_mem_nil, or_false] at ho
      subst ho
      exact batch1_good false)
  revert this
  decide +kernel

end Verif.C60
