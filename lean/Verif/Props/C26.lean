import Verif.Proofs.DurCheck
import Verif.Spec.C26
import Verif.Props.C25

/-! C26: restarting is idempotent. -/
namespace Verif.C26
open Dur C25
open Wal (Rec)

theorem restarts_inv {iv : Nat} : ∀ (n : Nat) {m : Nat} {db : Db} {H : List Rec}, Inv iv db H m →
    ∃ db', restarts iv n db = .ok db' ∧ Inv iv db' H m := by
  intro n
  induction n with
  | zero => intro m db H h; exact ⟨db, rfl, h⟩
  | succ n ih =>
    intro m db H h
    obtain ⟨db1, h1, h2, _⟩ := restart_inv h
    obtain ⟨db2, h3, h4⟩ := ih h2
    refine ⟨db2, ?_, h4⟩
    unfold restarts
    rw [h1, Res.bind_ok]
    exact h3

/-- After a safe history any number of restarts succeeds and changes nothing
that can be read.  Missing for the full property: drops, failing refreshes and
garbage collection in the windows of C25; with drops it is false (below). -/
theorem C26_restarts_partial (iv : Nat) (ops : List Op) (hs : Safe iv Dur.init ops) :
    ∃ db hist, runH iv Dur.init [] ops = .ok (db, hist) ∧
      ∀ n, ∃ db', restarts iv n db = .ok db' ∧ db'.lsn = db.lsn ∧ ∀ k, view iv db' k = view iv db k := by
  obtain ⟨db, H, m, h1, h2⟩ := run_inv ops (init_inv iv) hs
  refine ⟨db, H, h1, ?_⟩
  intro n
  obtain ⟨db', h3, h4⟩ := restarts_inv n h2
  refine ⟨db', h3, ?_, ?_⟩
  · rw [h4.eq, h2.eq]
  · intro k
    rw [view_content h4, view_content h2]

/-- A partition that is dropped and created again: the replayed drop is logged
again, behind the newer batch. -/
def dropped : List Op := [.log [ev 3 1], .commit, .dropFile 0, .dropRef 0, .log [ev 3 2], .commit]

/-- The first restart shows the newer batch, the second one nothing. -/
theorem C26_dropped :
    ((runH 10 Dur.init [] dropped).bind fun (db, _) =>
      (restart 10 db).bind fun db1 => (restart 10 db1).bind fun db2 =>
      .ok (view 10 db (3, [1]), view 10 db1 (3, [1]), view 10 db2 (3, [1]))) =
    .ok (some (ev 3 2), some (ev 3 2), none) := by decide +kernel

theorem C26_dropped_false : ¬ Full 10 := by
  intro hf
  have h : ((runH 10 Dur.init [] dropped).bind fun (db, _) => (restarts 10 2 db).bind fun db2 =>
      .ok (view 10 db (3, [1]), view 10 db2 (3, [1]), db.pending)) = .ok (some (ev 3 2), none, none) := by decide +kernel
  cases hr : runH 10 Dur.init [] dropped with
  | ok r =>
    obtain ⟨db, hist⟩ := r
    rw [hr, Res.bind_ok] at h
    have hp : db.pending = none := by
      cases h2 : restarts 10 2 db with
      | ok db2 =>
        simp only [h2, Res.bind_ok, Res.ok.injEq, Prod.mk.injEq] at h
        exact h.2.2
      | err m => simp only [h2] at h; cases h
      | abort m => simp only [h2] at h; cases h
      | ub m => simp only [h2] at h; cases h
    obtain ⟨db2, h1, h2⟩ := hf dropped db hist hr hp 2
    simp only [h1, Res.bind_ok, Res.ok.injEq, Prod.mk.injEq] at h
    have h3 := h2 (3, [1])
    rw [h.1, h.2.1] at h3
    cases h3
  | err m => rw [hr] at h; cases h
  | abort m => rw [hr] at h; cases h
  | ub m => rw [hr] at h; cases h

/-- With a log rotation in between the first restart is enough: the repeated
drop is appended to the last file, which is read afterwards. -/
theorem C26_dropped_rotated :
    ((runH 10 Dur.init [] (dropped.take 4 ++ [.rotate] ++ dropped.drop 4)).bind fun (db, _) =>
      (restart 10 db).bind fun db1 => .ok (view 10 db (3, [1]), view 10 db1 (3, [1]))) =
    .ok (some (ev 3 2), none) := by decide +kernel

example : Safe 10 Dur.init sample := safe_init (by decide +kernel)

end Verif.C26
