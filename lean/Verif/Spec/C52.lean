import Verif.Spec.C25

/-! C52: a checkpoint empties memory and truncates the log. -/
namespace Verif.C52
open Dur
open Wal (Rec)

/-- What is in the partition file for a pair. -/
def saved (iv : Nat) (db : Db) (k : Nat × List UInt8) : Option Event :=
  match (db.slots (partOf iv k.1)).files.id_ with
  | none => none
  | some f => tget f.tbl k

/-- No batch and no refresh is under way. -/
def Quiet (db : Db) : Prop := db.pending = none ∧ ∀ p ∈ db.known, ∀ x, (db.slots p).part = some x → x.phase = .idle

/-- All data is in files, and garbage collection keeps one log file. -/
def Emptied (iv : Nat) (db : Db) (hist : List Rec) : Prop :=
  (∀ k, saved iv (checkpoint iv db) k = content iv hist k) ∧
  (∀ p x, ((checkpoint iv db).slots p).part = some x → x.act.tbl = [] ∧ x.prev.tbl = []) ∧
  ∃ f, (gc (checkpoint iv db)).wal = [f] ∧ db.wal.getLast? = some f

/-- The property. -/
def Full (iv : Nat) : Prop :=
  ∀ ops db hist, C25.NoDrops ops → runH iv Dur.init [] ops = .ok (db, hist) → Quiet db → Emptied iv db hist

end Verif.C52
