import Verif.Proofs.DropRun
import Verif.Props.C26

/-! C86: dropped partitions stay dropped, and take nothing else with them. -/
namespace Verif.C86
open Dur C25
open Wal (Rec)

/-- After any safe history with drops and crashes, a partition that was never
dropped has all its batches, and a partition that was dropped after its last
batch has nothing, also when the drop record is replayed.  Missing for the full
property: partitions that are written to again after they were dropped, failing
refreshes, garbage collection in the windows of C25, crashes after which the
numbers of the log go back, rotations that meet the current file; for the first
and the fourth of these it is false (below). -/
theorem C86_drops_partial (iv : Nat) (ops : List Op) (hs : Safe iv Dur.init ops) :
    ∃ db hist, runH iv Dur.init [] ops = .ok (db, hist) ∧
      ∀ k, Kept ops (partOf iv k.1) ∨ Gone iv hist (partOf iv k.1) → view iv db k = content iv hist k := by
  let L : Nat → Bool := fun p => !ops.any fun op => decide (op = .dropFile p ∨ op = .dropRef p)
  have hL : ∀ p, .dropFile p ∈ ops ∨ .dropRef p ∈ ops → L p = false := by
    intro p hp
    show (!ops.any fun op => decide (op = .dropFile p ∨ op = .dropRef p)) = false
    rw [Bool.not_eq_false', List.any_eq_true]
    rcases hp with hp | hp
    · exact ⟨_, hp, by simp⟩
    · exact ⟨_, hp, by simp⟩
  obtain ⟨db, hist, h1, h2⟩ := run_all ops (init_all L iv) hs hL
  refine ⟨db, hist, h1, fun k hk => view_all h2 k ?_⟩
  rcases hk with hk | hk
  · left
    show (!ops.any fun op => decide (op = .dropFile _ ∨ op = .dropRef _)) = true
    rw [Bool.not_eq_true', List.any_eq_false]
    intro op hop
    have := hk op hop
    simp [this.1, this.2]
  · exact .inr hk

/-- Two partitions; the second is refreshed, then dropped, the log rotated, and
the process dies twice. -/
def sample : List Op :=
  [.log [ev 3 1, ev 13 2], .commit, .begin_ 10, .merge 10, .apply_ 10, .complete 10, .delete 10, .finish 10,
    .log [ev 13 5], .commit, .dropFile 10, .dropRef 10, .log [ev 4 3], .commit, .rotate, .crash, .log [ev 3 7], .commit,
    .gc, .crash]

example : Safe 10 Dur.init sample := dropSafe_init (by decide +kernel)

theorem C86_sample : ((runH 10 Dur.init [] sample).bind fun (db, hist) =>
      .ok (view 10 db (3, [1]), view 10 db (4, [1]), view 10 db (13, [1]))) =
    .ok (some (ev 3 7), some (ev 4 3), none) := by
  decide +kernel

/-- The second partition is one of those in the theorem. -/
example : ∃ db hist, runH 10 Dur.init [] sample = .ok (db, hist) ∧ Gone 10 hist 10 := by
  have h : ((runH 10 Dur.init [] sample).bind fun (_, hist) => .ok hist) =
      .ok ([.write 1 2 [ev 3 1, ev 13 2], .write 2 1 [ev 13 5]] ++ [.drop 3 10] ++ [.write 4 1 [ev 4 3]] ++
        [.write 5 1 [ev 3 7]]) := by decide +kernel
  cases hr : runH 10 Dur.init [] sample with
  | ok r =>
    rw [hr, Res.bind_ok] at h
    refine ⟨r.1, r.2, rfl, ?_⟩
    rw [Res.ok.inj h]
    refine gone_add (gone_add (gone_drop 10 10 3 _) ?_) ?_ <;> decide +kernel
  | err m => rw [hr] at h; cases h
  | abort m => rw [hr] at h; cases h
  | ub m => rw [hr] at h; cases h

example : Kept sample 0 := by
  unfold Kept
  decide +kernel

/-- A partition written to after it was dropped loses that batch when the
process dies twice: the replayed drop is logged again, behind the batch. -/
def rewritten : List Op := C26.dropped ++ [.crash, .crash]

theorem C86_rewritten_false : ¬ Full 10 := by
  intro hf
  have h : ((runH 10 Dur.init [] rewritten).bind fun (db, hist) =>
      .ok (view 10 db (3, [1]), content 10 hist (3, [1]))) = .ok (none, some (ev 3 2)) := by decide +kernel
  cases hr : runH 10 Dur.init [] rewritten with
  | ok r =>
    obtain ⟨db, hist⟩ := r
    rw [hr, Res.bind_ok] at h
    have h1 := hf rewritten db hist hr (3, [1])
    simp only [Res.ok.injEq, Prod.mk.injEq] at h
    rw [h.1, h.2] at h1
    cases h1
  | err m => rw [hr] at h; cases h
  | abort m => rw [hr] at h; cases h
  | ub m => rw [hr] at h; cases h

/-- The only partition is dropped, the log is rotated and cleaned and the process
dies: the next batches have the numbers of the first ones again, and the next log
file a number below the one of the current file. -/
def renumbered : List Op :=
  [.log [ev 3 1], .commit, .dropFile 0, .dropRef 0, .rotate, .gc, .crash, .log [ev 3 1], .commit, .rotate,
    .log [ev 3 2], .commit]

/-- Before the next restart the reader sees the second version, after it the
first: the newer file is read first. -/
theorem C86_renumbered : ((runH 10 Dur.init [] renumbered).bind fun (db, _) => (restart 10 db).bind fun db' =>
      .ok (view 10 db (3, [1]), view 10 db' (3, [1]), db.wal.map Prod.fst)) =
    .ok (some (ev 3 2), some (ev 3 1), [2, 3]) := by decide +kernel

theorem C86_renumbered_false : ¬ Full 10 := by
  intro hf
  have h : ((runH 10 Dur.init [] (renumbered ++ [.crash])).bind fun (db, hist) =>
      .ok (view 10 db (3, [1]), content 10 hist (3, [1]))) = .ok (some (ev 3 1), some (ev 3 2)) := by decide +kernel
  cases hr : runH 10 Dur.init [] (renumbered ++ [.crash]) with
  | ok r =>
    obtain ⟨db, hist⟩ := r
    rw [hr, Res.bind_ok] at h
    have h1 := hf _ db hist hr (3, [1])
    simp only [Res.ok.injEq, Prod.mk.injEq] at h
    rw [h.1, h.2] at h1
    cases h1
  | err m => rw [hr] at h; cases h
  | abort m => rw [hr] at h; cases h
  | ub m => rw [hr] at h; cases h

/-- With two batches in place of one after the restart the new log file has the
number of the current one. -/
theorem C86_same_number : ((runH 10 Dur.init [] (renumbered.take 7 ++ [.log [ev 3 1], .commit, .log [ev 3 2], .commit])).bind
      fun (db, _) => .ok (db.cur, db.lsn + 1, (db.wal.map Prod.snd).map List.length)) = .ok (3, 3, [2]) := by decide +kernel

end Verif.C86
