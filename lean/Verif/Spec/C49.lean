import Verif.Spec.C25

/-! C49: replay skips exactly what is already stored. -/
namespace Verif.C49
open Dur
open Wal (Rec)

/-- The events that partition `p` shows after a restart, in terms of the logged
batches: the file has the effect of the records up to its number, the memory
table that of all later ones. -/
def Exact (iv : Nat) (hist : List Rec) (p : Nat) (x : Part) : Prop :=
  match x.file with
  | none => ∀ k, partOf iv k.1 = p → tget x.act.tbl k = version iv k hist
  | some f => ∀ k, partOf iv k.1 = p →
    tget f.tbl k = content iv (hist.filter fun r => decide (r.lsn ≤ f.lsn)) k ∧
    tget x.act.tbl k = version iv k (hist.filter fun r => decide (f.lsn < r.lsn))

/-- The property. -/
def Full (iv : Nat) : Prop :=
  ∀ ops db hist db', C25.NoDrops ops → runH iv Dur.init [] ops = .ok (db, hist) → restart iv db = .ok db' →
    ∀ p x, (db'.slots p).part = some x → Exact iv hist p x

end Verif.C49
