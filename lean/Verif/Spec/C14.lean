import Verif.Model.Merger
import Verif.Spec.C13
import Verif.Spec.C10

/-! C14: a refresh does not change what readers see. -/
namespace Verif.C14
open Spec Dur
open Wal (Rec)

/-- The first event for a pair. -/
def find (L : List Event) (k : Nat × List UInt8) : Option Event := L.find? fun e => e.pair == k

/-- The new file for a memory table and a file: each key once, ascending, no
deletes, and what was visible. -/
def NewFile (mem file out : List Event) : Prop :=
  Ascending out ∧ (∀ e ∈ out, e.isDelete = false) ∧
  ∀ k, find out k = ((find mem k).or (find file k)).filter fun e => !e.isDelete

/-- The steps of a refresh. -/
def RefreshStep (p : Nat) (op : Op) : Prop :=
  op = .begin_ p ∨ op = .merge p ∨ op = .apply_ p ∨ op = .complete p ∨ op = .delete p ∨ op = .finish p

/-- The property for the database: no step of a refresh changes what is read,
after any history of batches and refreshes, which may fail. -/
def Full (iv : Nat) : Prop :=
  ∀ ops db hist p op db', C10.Plain ops → runH iv Dur.init [] ops = .ok (db, hist) → RefreshStep p op →
    step iv db op = .ok db' → ∀ k, view iv db' k = view iv db k

end Verif.C14
