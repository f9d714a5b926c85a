import Verif.Spec.Durable

/-! C10: last write wins and deletes hide. -/
namespace Verif.C10
open Dur
open Wal (Rec)

/-- Batches and refreshes, which may fail. -/
def Plain (ops : List Op) : Prop :=
  ∀ op ∈ ops, op ≠ .crash ∧ op ≠ .gc ∧ op ≠ .rotate ∧ (∀ p, op ≠ .dropFile p) ∧ ∀ p, op ≠ .dropRef p

/-- The property: after any such history every key reads as its last version,
and not at all if that is a delete. -/
def Full (iv : Nat) : Prop :=
  ∀ ops db hist, Plain ops → runH iv Dur.init [] ops = .ok (db, hist) → ∀ k, view iv db k = content iv hist k

end Verif.C10
