import Verif.Model.Event

/-! Statement of C01. -/
namespace Verif.C01
open Spec

/-- Every place that orders two events agrees with the order of (id, key). -/
def AgreesOn (mc : MemCmp) (a b : Event) : Prop :=
  (compare mc a b).sign = keyCmp a.pair b.pair ∧
  (compareInt mc a b).sign = keyCmp a.pair b.pair ∧
  (∃ d, compareU64 a.id b.id = .ok d ∧ d.sign = ((a.id : Int) - b.id).sign)

/-- A legal event: 64-bit id, key of at most 255 bytes. -/
def Legal (e : Event) : Prop := e.id < 18446744073709551616 ∧ e.key.length ≤ 255

/-- The full property. -/
def Full (mc : MemCmp) : Prop := ∀ a b, Legal a → Legal b → AgreesOn mc a b

end Verif.C01
