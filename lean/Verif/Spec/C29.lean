import Verif.Model.Serial
import Verif.Spec.Durable

/-! C29: serial ids are unique and increasing. -/
namespace Verif.C29
open Dur Serial

/-- The ids the next batch gives: larger than those given before, larger than
those of all events that can be read, and increasing. -/
def Next (iv : Nat) (s : State) (ids : List Nat) (args : List Arg) : Prop :=
  (∀ i ∈ given s.ssn args, (∀ j ∈ ids, j < i) ∧ ∀ k, (view iv s.db k).isSome → k.1 < i) ∧
    (given s.ssn args).Pairwise (· < ·)

/-- Less than 2^64 serial numbers so far. -/
def Room (s : State) (args : List Arg) : Prop := s.ssn + args.length < 18446744073709551616

/-- C29 in full: after any history, as long as there are numbers left. -/
def Full (iv : Nat) : Prop := ∀ ops s ids, Serial.run iv Serial.init [] ops = .ok (s, ids) → ∀ args, Room s args → Next iv s ids args

/-- Histories whose steps are as `P` wants them where they happen. -/
def All (iv : Nat) (P : State → Serial.Op → Prop) : State → List Serial.Op → Prop
  | _, [] => True
  | s, op :: ops => P s op ∧ ∀ s' ids, Serial.step iv s op = .ok (s', ids) → All iv P s' ops

/-- No restart. -/
def Running (s : State) : Serial.Op → Prop
  | .write args => Room s args
  | .refused args => Room s args
  | .other o => o ≠ .crash

/-- Ids that are given explicitly have been used before. -/
def Below (s : State) (args : List Arg) : Prop := ∀ a ∈ args, a.serial = false → a.event.id < s.ssn

/-- The last partition holds an event, or a delete that is still in memory; or
nothing is stored at all. -/
def LastHolds (db : Db) : Prop :=
  (∀ p x, (db.slots p).part = some x → x.act.tbl = [] ∧ ∀ f, x.file = some f → f.tbl = []) ∨
  ∃ p x, (db.slots p).part = some x ∧ (x.act.tbl ≠ [] ∨ ∃ f, x.file = some f ∧ f.tbl ≠ []) ∧
    ∀ q y, (db.slots q).part = some y → q ≤ p

/-- Explicit ids below the serial number; after a restart the last partition
holds an event. -/
def Tame (iv : Nat) (s : State) : Serial.Op → Prop
  | .write args => Room s args ∧ Below s args
  | .refused args => Room s args ∧ Below s args
  | .other .crash => ∀ db, restart iv s.db = .ok db → LastHolds db
  | .other (.log _) => False
  | .other _ => True

/-- Explicit ids below the serial number, no deletes, no failures, and nothing
that loses data (`Dur.Allowed`). -/
def Plain (s : State) : Serial.Op → Prop
  | .write args => Room s args ∧ Below s args ∧ (∀ a ∈ args, a.event.isDelete = false) ∧ args ≠ [] ∧ s.db.lsn + 2 < 18446744073709551615
  | .refused _ => False
  | .other (.log _) => False
  | .other o => Dur.Allowed s.db o

end Verif.C29
