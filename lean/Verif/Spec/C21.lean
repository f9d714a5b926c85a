import Verif.Spec.Durable

/-! C21: log sequence numbers increase strictly. -/
namespace Verif.C21
open Dur

/-- The property: the numbers given out in a history increase strictly, and so
do the numbers in the log files. -/
def Full (iv : Nat) : Prop :=
  ∀ ops db hist, runH iv Dur.init [] ops = .ok (db, hist) →
    (hist.Pairwise fun a b => a.lsn < b.lsn) ∧ (db.wal.flatMap (·.2)).Pairwise fun a b => a.lsn < b.lsn

end Verif.C21
