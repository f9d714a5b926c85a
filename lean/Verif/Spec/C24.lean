import Verif.Spec.C25

/-! C24: log garbage collection never removes needed records. -/
namespace Verif.C24
open Dur
open Wal (Rec)

/-- Log files in order: the records of a file have numbers from its id up to
the id of the next file. -/
def Ordered (files : List (Nat × List Rec)) : Prop :=
  files.Pairwise fun f g => f.1 < g.1 ∧ ∀ r ∈ f.2, r.lsn < g.1

/-- The partition file that a restart takes has the effect of record `l`. -/
def Stored (db : Db) (p l : Nat) : Prop := ∃ f, recover (db.slots p).files = .ok (some f) ∧ l ≤ f.lsn

/-- The property for the database: after any history, garbage collection keeps
every record with an event that is not stored. -/
def Full (iv : Nat) : Prop :=
  ∀ ops db hist, C25.NoDrops ops → runH iv Dur.init [] ops = .ok (db, hist) → db.pending = none →
    ∀ r ∈ hist, (∃ l n es, r = .write l n es ∧ ∃ e ∈ es, ¬ Stored db (partOf iv e.id) l) →
      r ∈ (gc db).wal.flatMap (·.2)

end Verif.C24
