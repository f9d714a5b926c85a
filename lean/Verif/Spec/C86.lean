import Verif.Spec.Durable

/-! C86: dropped partitions stay dropped, and take nothing else with them. -/
namespace Verif.C86
open Dur
open Wal (Rec)

/-- The property: after any history, drops and crashes included, a reader sees
what the batches and drops of the history leave. -/
def Full (iv : Nat) : Prop :=
  ∀ ops db hist, runH iv Dur.init [] ops = .ok (db, hist) → ∀ k, view iv db k = content iv hist k

/-- A partition that no step of the history drops. -/
def Kept (ops : List Op) (p : Nat) : Prop := ∀ op ∈ ops, op ≠ .dropFile p ∧ op ≠ .dropRef p

/-- Every batch with events of the partition is followed by a drop of it. -/
def Gone (iv : Nat) (hist : List Rec) (p : Nat) : Prop :=
  ∀ H1 l m es H2, hist = H1 ++ .write l m es :: H2 → (∃ e ∈ es, partOf iv e.id = p) → ∃ l', Rec.drop l' p ∈ H2

/-- Steps outside the cases in which the code loses data.  As in Durable.lean for
garbage collection and failing refreshes; a crash does not make the database
forget numbers that it has given to records, and the log is not rotated when its
current file has the next number already. -/
def Allowed (iv : Nat) (db : Db) : Op → Prop
  | .gc => db.pending = none ∧ ∀ p x, (db.slots p).part = some x → x.phase.open_ = false
  | .fail _ => False
  | .rotate => db.cur ≤ db.lsn ∨ (db.cur, []) ∈ db.wal
  | .crash => ∀ db', restart iv db = .ok db' → db.lsn ≤ db'.lsn
  | _ => True

/-- All steps of a history are allowed. -/
def Safe (iv : Nat) : Db → List Op → Prop
  | _, [] => True
  | db, op :: ops => Allowed iv db op ∧ ∀ db', step iv db op = .ok db' → Safe iv db' ops

end Verif.C86
