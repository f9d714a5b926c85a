import Verif.Proofs.DurCheck
import Verif.Spec.C10
import Verif.Props.C25

/-! C10: last write wins and deletes hide. -/
namespace Verif.C10
open Dur C25
open Wal (Rec)

/-- Every key reads as its last version and deleted keys are not found, whether
the versions are in the current memory table, in the other one or in the file.
Histories may contain refreshes at any stage, rotations, garbage collection and
restarts.  Missing for the full property: failing refreshes, for which it is
false (below). -/
theorem C10_reads_partial (iv : Nat) (ops : List Op) (hs : Safe iv Dur.init ops) (db : Db) (hist : List Rec)
    (hr : runH iv Dur.init [] ops = .ok (db, hist)) (k : Nat × List UInt8) : view iv db k = content iv hist k := by
  obtain ⟨db', H', n, h1, h2⟩ := run_inv ops (init_inv iv) hs
  rw [hr] at h1
  have := Res.ok.inj h1
  simp only [Prod.mk.injEq] at this
  obtain ⟨rfl, rfl⟩ := this
  exact view_content h2 k

/-- A key whose last version is a delete is not found. -/
theorem C10_deleted_partial (iv : Nat) (ops : List Op) (hs : Safe iv Dur.init ops) (db : Db) (hist : List Rec)
    (hr : runH iv Dur.init [] ops = .ok (db, hist)) (k : Nat × List UInt8) (e : Event)
    (hv : version iv k hist = some e) (hd : e.isDelete = true) : view iv db k = none := by
  rw [C10_reads_partial iv ops hs db hist hr k]
  unfold content
  rw [hv]
  simp [hd]

/-- After a failed refresh the next one exchanges the memory tables: the older
version hides the newer one. -/
def failed : List Op :=
  [.log [ev 3 1], .commit, .begin_ 0, .fail 0, .log [ev 3 2], .commit, .begin_ 0]

theorem C10_failed_refresh_false : ¬ Full 10 := by
  intro hf
  have h : ((runH 10 Dur.init [] failed).bind fun (db, hist) =>
      .ok (view 10 db (3, [1]), content 10 hist (3, [1]))) = .ok (some (ev 3 1), some (ev 3 2)) := by decide +kernel
  cases hr : runH 10 Dur.init [] failed with
  | ok r =>
    obtain ⟨db, hist⟩ := r
    have h1 := hf failed db hist (by unfold Plain failed; simp) hr (3, [1])
    rw [hr, Res.bind_ok] at h
    simp only [Res.ok.injEq, Prod.mk.injEq] at h
    rw [h.1, h.2] at h1
    exact absurd h1 (by decide)
  | err m => rw [hr] at h; cases h
  | abort m => rw [hr] at h; cases h
  | ub m => rw [hr] at h; cases h

/-- The hypotheses are met: an overwrite during a refresh, and a delete of a key
that is in the file. -/
example : Safe 10 Dur.init
    [.log [ev 3 1], .commit, .begin_ 0, .log [ev 3 2], .commit, .merge 0, .apply_ 0, .complete 0, .delete 0, .finish 0,
      .log [{ (ev 3 0) with flags := 1 }], .commit] := safe_init (by decide +kernel)

example : ((runH 10 Dur.init [] sample).bind fun (db, hist) =>
    .ok (view 10 db (3, [1]), view 10 db (14, [1]), version 10 (14, [1]) hist)) =
    .ok (some (ev 3 4), none, some { (ev 14 0) with flags := 1 }) := by decide +kernel

end Verif.C10
