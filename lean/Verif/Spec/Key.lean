/-! Specification of the event order: unsigned id first, then the key bytes
lexicographically, a proper prefix being smaller. -/
namespace Verif.Spec

/-- Three-way lexicographic order of byte strings (result -1, 0 or 1). -/
def lexCmp : List UInt8 → List UInt8 → Int
  | [], [] => 0
  | [], _ :: _ => -1
  | _ :: _, [] => 1
  | a :: as, b :: bs => if a < b then -1 else if b < a then 1 else lexCmp as bs

/-- Three-way order of (id, key) pairs (result -1, 0 or 1). -/
def keyCmp (a b : Nat × List UInt8) : Int :=
  if a.1 < b.1 then -1 else if b.1 < a.1 then 1 else lexCmp a.2 b.2

end Verif.Spec
