import Verif.Spec.Durable

/-! C26: restarting is idempotent. -/
namespace Verif.C26
open Dur

/-- A number of restarts. -/
def restarts (iv : Nat) : Nat → Db → Res Db
  | 0, db => .ok db
  | n + 1, db => (restart iv db).bind (restarts iv n)

/-- The property: any number of restarts shows the same contents as before. -/
def Full (iv : Nat) : Prop :=
  ∀ ops db hist, runH iv Dur.init [] ops = .ok (db, hist) → db.pending = none →
    ∀ n, ∃ db', restarts iv n db = .ok db' ∧ ∀ k, view iv db' k = view iv db k

end Verif.C26
