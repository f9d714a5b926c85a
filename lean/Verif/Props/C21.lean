import Verif.Proofs.DurCheck
import Verif.Spec.C21
import Verif.Props.C25
import Verif.Props.C23

/-! C21: log sequence numbers increase strictly. -/
namespace Verif.C21
open Dur C25
open Wal (Rec)

/-- In a safe history, with any number of restarts, every batch gets a number
larger than all before, the log files list them in increasing order, and all
numbers are up to the current one.  Missing for the full property: drops, for
which it is false (below), failing refreshes and garbage collection in the
windows of C25. -/
theorem C21_increase_partial (iv : Nat) (ops : List Op) (hs : Safe iv Dur.init ops) :
    ∃ db hist, runH iv Dur.init [] ops = .ok (db, hist) ∧
      (hist.Pairwise fun a b => a.lsn < b.lsn) ∧ ((db.wal.flatMap (·.2)).Pairwise fun a b => a.lsn < b.lsn) ∧
      ∀ r ∈ hist, 1 ≤ r.lsn ∧ r.lsn ≤ db.lsn := by
  obtain ⟨db, H, n, h1, h2⟩ := run_inv ops (init_inv iv) hs
  refine ⟨db, H, h1, h2.asc, ?_, ?_⟩
  · rw [h2.wal]
    exact h2.asc.sublist (List.drop_sublist _ _)
  · intro r hr
    refine ⟨?_, ?_⟩
    · obtain ⟨l, m, es, rfl, _, h⟩ := h2.writes r hr
      exact h
    · rw [h2.eq]
      exact le_last h2.asc hr

/-- A partition is written, refreshed and dropped; its log file is gone.  The
number of the drop is forgotten by the restart and given out again. -/
def dropped : List Op :=
  [.log [ev 3 1], .commit, .begin_ 0, .merge 0, .apply_ 0, .complete 0, .delete 0, .finish 0, .rotate, .gc,
    .dropFile 0, .dropRef 0, .crash, .log [ev 3 2], .commit, .log [ev 3 3], .commit]

/-- The numbers given out: 1, 2 (the drop), and again 1, 2. -/
theorem C21_dropped_false : ¬ Full 10 := by
  intro hf
  have h : ((runH 10 Dur.init [] dropped).bind fun (_, hist) => .ok (hist.map (·.lsn))) = .ok [1, 2, 1, 2] := by
    decide +kernel
  cases hr : runH 10 Dur.init [] dropped with
  | ok r =>
    obtain ⟨db, hist⟩ := r
    have h1 := (hf dropped db hist hr).1
    rw [hr, Res.bind_ok] at h
    simp only [Res.ok.injEq] at h
    have h2 : (hist.map (·.lsn)).Pairwise (· < ·) := List.pairwise_map.2 h1
    rw [h] at h2
    exact absurd h2 (by decide)
  | err m => rw [hr] at h; cases h
  | abort m => rw [hr] at h; cases h
  | ub m => rw [hr] at h; cases h

example : Safe 10 Dur.init sample := safe_init (by decide +kernel)

/-! ### In the bytes of the log files -/

/-- How many records are logged. -/
def count : List C23.Op → Nat
  | [] => 0
  | .log _ :: ops => count ops + 1
  | _ :: ops => count ops

theorem logged_length : ∀ (ops : List C23.Op) (l : Nat), (C23.logged l ops).length = count ops := by
  intro ops
  induction ops with
  | nil => intro l; rfl
  | cons op ops ih => intro l; cases op <;> simp [C23.logged, count, ih]

theorem count_le : ∀ (ops : List C23.Op), count ops ≤ ops.length := by
  intro ops
  induction ops with
  | nil => exact Nat.le_refl _
  | cons op ops ih => cases op <;> simp [count] <;> omega

theorem record_lsn (e : C22.Entry) : e.record.lsn = e.lsn := by cases e <;> rfl

/-- The same for the bytes that wal_write, wal_rotate and the restarts leave in the
log files: after any number of batches, rotations and restarts, what is read from
the files is one record for every batch, the numbers increase strictly, and the
next number is larger than all of them.  Missing: as in C23 (drops, torn records, files of more
than 3 GiB). -/
theorem C21_files_partial (crcOn : Bool) (base fuel : Nat) (fs : List C22.LogFile) (s : Wal.State) (ops : List C23.Op)
    (h : C23.Running crcOn fs s) (hr : C23.InRange fs s ops fuel) (hb : base ≤ s.lsn)
    (hg : ∀ op ∈ ops, C23.opGood crcOn op) (hops : ∀ op ∈ ops, C23.opBatch op)
    (hba : C23.Batches (C22.entriesOf fs)) (hs : C23.StaysSmall crcOn base fuel s ops) :
    ∃ s' rs s2, C23.run crcOn base fuel s ops = .ok s' ∧ Wal.restart crcOn s'.dir.files base fuel = .ok (rs, s2) ∧
      rs.length = (C22.entriesOf fs).length + count ops ∧ (rs.Pairwise fun a b => a.lsn < b.lsn) ∧
      (∀ r ∈ rs, r.lsn ≤ s'.lsn) ∧ s2.lsn = s'.lsn := by
  obtain ⟨fs', s', e1, e2, e3, e4, e5⟩ := C23.run_spec ops fs s h hr hb hg hops hba hs
  have hlen : (C22.entriesOf fs').length = (C22.entriesOf fs).length + count ops := by
    rw [e3, List.length_append, logged_length]
  obtain ⟨s2, h1, h2, h3⟩ := C23.step_reopen (base := base) (fuel := fuel) e2 (hs ops [] s' (by simp) e1) e5
    (by rw [hlen]; have := hr.2; have := count_le ops; omega) e4
  refine ⟨s', _, s2, e1, h1, by rw [List.length_map, hlen], ?_, ?_, h3⟩
  · rw [List.pairwise_map]
    exact (C22.ordered_lsn fs' e2.1.1).imp fun h => by rw [record_lsn, record_lsn]; exact h
  · intro r hr
    obtain ⟨e, he, rfl⟩ := List.mem_map.1 hr
    rw [record_lsn, e2.2.2.1]
    exact C23.lsn_le_last e he

/-- A run whose steps leave short files. -/
def smallRun (s : Wal.State) : List C23.Op → Bool
  | [] => s.dir.files.all fun f => f.2.length ≤ 3221225472
  | op :: ops => (s.dir.files.all fun f => f.2.length ≤ 3221225472) &&
    match C23.run false 0 10 s [op] with
    | .ok s => smallRun s ops
    | _ => true

theorem run_cons (s : Wal.State) (op : C23.Op) (ops : List C23.Op) :
    C23.run false 0 10 s (op :: ops) = (C23.run false 0 10 s [op]).bind fun s => C23.run false 0 10 s ops := by
  cases op with
  | log k => simp only [C23.run]; cases s.write _ <;> rfl
  | rotate wm => rfl
  | reopen => simp only [C23.run]; cases Wal.restart false s.dir.files 0 10 <;> rfl

theorem small_run : ∀ (ops : List C23.Op) (s : Wal.State), smallRun s ops = true → C23.StaysSmall false 0 10 s ops := by
  have hsm : ∀ s : Wal.State, (s.dir.files.all fun f => f.2.length ≤ 3221225472) = true → C22.Small s.dir := by
    intro s h f hf
    have := List.all_eq_true.1 h f hf
    simpa using this
  intro ops
  induction ops with
  | nil =>
    intro s h o1 o2 t ho hr
    obtain ⟨rfl, rfl⟩ := List.append_eq_nil_iff.1 ho.symm
    cases hr
    exact hsm s h
  | cons op ops ih =>
    intro s h o1 o2 t ho hr
    simp only [smallRun, Bool.and_eq_true] at h
    cases o1 with
    | nil =>
      cases hr
      exact hsm s h.1
    | cons a o1 =>
      obtain ⟨rfl, ho'⟩ := List.cons.inj ho
      rw [run_cons] at hr
      obtain ⟨s1, h1, hr⟩ := Res.bind_eq_ok.1 hr
      have h2 := h.2
      rw [h1] at h2
      exact ih s1 h2 o1 o2 t ho' hr

/-- Another batch, a rotation, a restart, and one more batch. -/
def more : List C23.Op := [.log C23.batch1, .rotate 0, .reopen, .log C23.batch1]

set_option maxRecDepth 100000 in
/-- The hypotheses are met by the log of C23 with one record and the operations
above: three records are found, with the numbers 1, 2, 3. -/
example : ∃ s' rs s2, C23.run false 0 10 C23.state1 more = .ok s' ∧ Wal.restart false s'.dir.files 0 10 = .ok (rs, s2) ∧
    rs.length = 3 ∧ (rs.Pairwise fun a b => a.lsn < b.lsn) ∧ (∀ r ∈ rs, r.lsn ≤ s'.lsn) ∧ s2.lsn = s'.lsn :=
  C21_files_partial false 0 10 C23.files1 C23.state1 more C23.running1 (by unfold C23.InRange; decide) (by decide)
    (by
      intro op ho
      simp only [more, List.mem_cons, List.not_mem_nil, or_false] at ho
      rcases ho with rfl | rfl | rfl | rfl
      · exact C23.batch1_good false
      · trivial
      · trivial
      · exact C23.batch1_good false) (by decide)
    (by
      intro e he
      simp only [C23.files1, C22.entriesOf, List.flatMap_cons, List.flatMap_nil, List.append_nil, List.mem_cons,
        List.not_mem_nil, or_false] at he
      exact ⟨_, _, he⟩)
    (small_run more C23.state1 (by decide +kernel))

end Verif.C21
