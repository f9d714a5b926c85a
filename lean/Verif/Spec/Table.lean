import Verif.Model.Event

/-! Specification of an ordered table of events: an ascending list with at most
one event per (id, key). -/
namespace Verif.Spec

/-- Order of events by (id, key). -/
def evCmp (a b : Event) : Int := keyCmp a.pair b.pair

/-- Ascending, each key once. -/
def Ascending (L : List Event) : Prop := L.Pairwise (fun a b => evCmp a b < 0)

/-- The stored event with the key of `e`. -/
def lookup (e : Event) (L : List Event) : Option Event := L.find? (fun a => evCmp a e == 0)

/-- Write `e`: it takes the place of an event with the same key. -/
def put (e : Event) (L : List Event) : List Event :=
  L.filter (fun a => evCmp a e < 0) ++ e :: L.filter (fun a => evCmp a e > 0)

/-- Remove the event with the key of `e`. -/
def erase (e : Event) (L : List Event) : List Event := L.filter (fun a => evCmp a e ≠ 0)

/-- The events at or after a key. -/
def atOrAfter (k : Event) (L : List Event) : List Event := L.filter (fun a => evCmp a k ≥ 0)

/-- Ids of one partition: a window of 2^31 ids; keys of at most 255 bytes. -/
def Within (base : Nat) (e : Event) : Prop :=
  base ≤ e.id ∧ e.id < base + 2147483648 ∧ e.key.length ≤ 255

end Verif.Spec
