import Verif.Model.Durable

/-! Reference for the properties about the database as a whole (C10, C21, C24,
C25, C26, C49, C52). -/
namespace Verif.Dur
open Wal (Rec)

/-- The last event of a batch for a pair. -/
def lastOf (es : List Event) (k : Nat × List UInt8) : Option Event := (es.filter fun e => e.pair == k).getLast?

/-- What a history of batches and drops leaves for a pair: the last version,
unless the partition was dropped afterwards.  A delete is a version. -/
def version (iv : Nat) (k : Nat × List UInt8) : List Rec → Option Event
  | [] => none
  | r :: rs =>
    match version iv k rs with
    | some e => some e
    | none =>
      if rs.any (fun r => match r with | .drop _ p => p == partOf iv k.1 | _ => false) then none
      else
        match r with
        | .write _ _ es => lastOf es k
        | .drop _ _ => none

/-- What a reader should see. -/
def content (iv : Nat) (hist : List Rec) (k : Nat × List UInt8) : Option Event :=
  (version iv k hist).filter fun e => !e.isDelete

/-- A history, together with what has been logged: a batch counts from the
moment when its record is in the log, a drop from the moment when it is
logged. -/
def runH (iv : Nat) : Db → List Rec → List Op → Res (Db × List Rec)
  | db, hist, [] => .ok (db, hist)
  | db, hist, op :: ops =>
    (step iv db op).bind fun db' =>
    let new : List Rec := match op with
      | .log es => if db.pending.isNone then [.write (db.lsn + 1) es.length es] else []
      | .dropRef p => if db'.lsn = db.lsn then [] else [.drop (db.lsn + 1) p]
      | _ => []
    runH iv db' (hist ++ new) ops

/-- A refresh of this phase has put its new file in place of the old one in
memory, but a restart would still take the old one. -/
def Phase.open_ : Phase → Bool
  | .applied _ => true
  | .completed _ => true
  | _ => false

/-- Steps outside the cases in which the code loses data: batches are not empty,
garbage collection of the log does not run while a batch is between wal_write and
engine_commit or while a refresh is between refresh_apply and the deletion of the
old file, refreshes do not fail, nothing is dropped. -/
def Allowed (db : Db) : Op → Prop
  | .log es => es ≠ [] ∧ db.lsn + 2 < 18446744073709551615
  | .gc => db.pending = none ∧ ∀ p x, (db.slots p).part = some x → x.phase.open_ = false
  | .fail _ => False
  | .dropFile _ => False
  | .dropRef _ => False
  | _ => True

/-- All steps of a history are allowed. -/
def Safe (iv : Nat) : Db → List Op → Prop
  | _, [] => True
  | db, op :: ops => Allowed db op ∧ ∀ db', step iv db op = .ok db' → Safe iv db' ops

end Verif.Dur
