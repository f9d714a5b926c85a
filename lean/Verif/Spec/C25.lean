import Verif.Spec.Durable

/-! C25: acknowledged writes survive a crash. -/
namespace Verif.C25
open Dur
open Wal (Rec)

/-- Histories of batches, refreshes (which may fail), rotations, garbage
collections and crashes. -/
def NoDrops (ops : List Op) : Prop := ∀ op ∈ ops, (∀ p, op ≠ .dropFile p) ∧ ∀ p, op ≠ .dropRef p

/-- The batches that were acknowledged: all but the one between wal_write and
engine_commit. -/
def acknowledged (db : Db) (hist : List Rec) : List Rec := if db.pending.isSome then hist.dropLast else hist

/-- The property: after any history, a crash and a restart give every key as
after the last acknowledged batch, or as after the batch in flight. -/
def Full (iv : Nat) : Prop :=
  ∀ ops db hist, NoDrops ops → runH iv Dur.init [] ops = .ok (db, hist) →
    ∃ db', restart iv db = .ok db' ∧
      ((∀ k, view iv db' k = content iv hist k) ∨ ∀ k, view iv db' k = content iv (acknowledged db hist) k)

end Verif.C25
