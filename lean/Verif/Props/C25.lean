import Verif.Proofs.DurCheck
import Verif.Spec.C25

/-! C25: acknowledged writes survive a crash.  True when garbage collection of
the log stays out of two windows and no refresh fails; false otherwise. -/
namespace Verif.C25
open Dur

/-- After a history without failing refreshes and without garbage collection in
the windows of `Allowed`, a crash at any moment and a restart give every key as
after all logged batches.  Missing for the full property: failing refreshes and
garbage collection in the two windows, for which it is false (below). -/
theorem C25_survives_partial (iv : Nat) (ops : List Op) (hs : Safe iv Dur.init ops) :
    ∃ db hist, runH iv Dur.init [] ops = .ok (db, hist) ∧
      ∃ db', restart iv db = .ok db' ∧ ∀ k, view iv db' k = content iv hist k := by
  obtain ⟨db, H, n, h1, h2⟩ := run_inv ops (init_inv iv) hs
  obtain ⟨db', h3, h4, _, _⟩ := restart_inv h2
  exact ⟨db, H, h1, db', h3, view_content h4⟩

/-- Every step of such a history can be carried out, and the database reads as
the history says at every moment, also after the crashes inside it. -/
theorem C25_reads_partial (iv : Nat) (ops : List Op) (hs : Safe iv Dur.init ops) :
    ∃ db hist, runH iv Dur.init [] ops = .ok (db, hist) ∧ ∀ k, view iv db k = content iv hist k := by
  obtain ⟨db, H, n, h1, h2⟩ := run_inv ops (init_inv iv) hs
  exact ⟨db, H, h1, view_content h2⟩

def ev (id : Nat) (v : UInt8) : Event := { id := id, flags := 0, key := [1], value := [v] }

/-- What is seen after the history and a restart, and what should be seen. -/
def seen (ops : List Op) (k : Nat × List UInt8) : Res (Option Event × Option Event × Option Event) :=
  (runH 10 Dur.init [] ops).bind fun (db, hist) =>
  (restart 10 db).bind fun db' => .ok (view 10 db' k, content 10 hist k, content 10 (acknowledged db hist) k)

theorem refute (ops : List Op) (hn : NoDrops ops) (k : Nat × List UInt8) (a b c : Option Event)
    (h : seen ops k = .ok (a, b, c)) (hab : a ≠ b) (hac : a ≠ c) : ¬ Full 10 := by
  intro hf
  unfold seen at h
  cases hr : runH 10 Dur.init [] ops with
  | ok r =>
    obtain ⟨db, hist⟩ := r
    obtain ⟨db', h1, h2⟩ := hf ops db hist hn hr
    rw [hr, Res.bind_ok] at h
    simp only [h1, Res.bind_ok, Res.ok.injEq, Prod.mk.injEq] at h
    obtain ⟨rfl, rfl, rfl⟩ := h
    rcases h2 with h2 | h2
    · exact hab (h2 k)
    · exact hac (h2 k)
  | err m => rw [hr] at h; cases h
  | abort m => rw [hr] at h; cases h
  | ub m => rw [hr] at h; cases h

/-- Garbage collection between refresh_apply and the deletion of the old file:
the memory table that is gone no longer protects the log, but a restart would
still need it. -/
def gcInRefresh : List Op :=
  [.log [ev 3 1], .commit, .rotate, .begin_ 0, .merge 0, .apply_ 0, .gc]

theorem C25_gc_in_refresh_false : ¬ Full 10 :=
  refute gcInRefresh (by unfold NoDrops gcInRefresh; simp) (3, [1]) none (some (ev 3 1)) (some (ev 3 1))
    (by decide +kernel) (by decide) (by decide)

/-- Garbage collection between wal_write and engine_commit: the memory table
does not know the number of its first batch yet. -/
def gcInBatch : List Op := [.log [ev 3 1], .rotate, .gc, .commit]

theorem C25_gc_in_batch_false : ¬ Full 10 :=
  refute gcInBatch (by unfold NoDrops gcInBatch; simp) (3, [1]) none (some (ev 3 1)) (some (ev 3 1))
    (by decide +kernel) (by decide) (by decide)

/-- A failed refresh: the next one writes the newer memory table first, and its
number makes a restart skip the older batch. -/
def failed : List Op :=
  [.log [ev 3 1], .commit, .begin_ 0, .fail 0, .log [ev 4 2], .commit, .begin_ 0, .merge 0, .apply_ 0, .complete 0,
    .delete 0, .finish 0]

theorem C25_failed_refresh_false : ¬ Full 10 :=
  refute failed (by unfold NoDrops failed; simp) (3, [1]) none (some (ev 3 1)) (some (ev 3 1))
    (by decide +kernel) (by decide) (by decide)

/-- The hypotheses of the theorems above are met by a history with overwrites,
a delete, a batch over two partitions, a rotation, complete and interrupted
refreshes, garbage collection and crashes. -/
def sample : List Op :=
  [.log [ev 3 1, ev 14 2], .commit, .rotate, .begin_ 0, .log [ev 3 4], .commit, .merge 0, .apply_ 0, .complete 0, .crash,
    .log [{ (ev 14 0) with flags := 1 }], .commit, .begin_ 0, .merge 0, .apply_ 0, .complete 0, .delete 0, .finish 0, .gc,
    .begin_ 10, .merge 10, .crash, .log [ev 5 5]]

example : Safe 10 Dur.init sample := safe_init (by decide +kernel)

end Verif.C25
