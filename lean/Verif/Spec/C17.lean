import Verif.Spec.PartFile

/-! C17: file index lookup finds the right region. -/
namespace Verif.C17

open Verif.Io

/-- The index with its data lists the regions `l`. -/
def Entries (i : Index) (data : Bytes) (l : List IndexRegion) : Prop :=
  i.regions = l.length ∧ ∀ (k : Nat) (r : IndexRegion), l[k]? = some r → i.get data k = .ok r

/-- Regions as C16 leaves them: ascending ranges of 64-bit ids. -/
def Ascending (l : List IndexRegion) : Prop :=
  (∀ r ∈ l, r.min ≤ r.max ∧ r.max < 18446744073709551616) ∧ l.Pairwise fun r r' => r.max < r'.min

/-- The iterator is on the first region whose max is not below the id: exactly
the regions before its position have a smaller max. -/
def Right (l : List IndexRegion) (id : Nat) (it : IndexIterator) : Prop :=
  it.current = l[it.pos]? ∧ ∀ j r, l[j]? = some r → (j < it.pos ↔ r.max < id)

/-- For every region index and id. -/
def Full : Prop :=
  ∀ (i : Index) (data : Bytes) (l : List IndexRegion) (id : Nat), Entries i data l → Ascending l →
    id < 18446744073709551616 → ∃ it, IndexIterator.open_ i data (some id) = .ok it ∧ Right l id it

/-- The ids and the request are all below 2^63 or all at least 2^63. -/
def SameHalf (l : List IndexRegion) (id : Nat) : Prop :=
  (id < 9223372036854775808 ∧ ∀ r ∈ l, r.max < 9223372036854775808) ∨
  (9223372036854775808 ≤ id ∧ ∀ r ∈ l, 9223372036854775808 ≤ r.max)

/-- The distance from the request to the max of the region to be found, or to
the last max, fits an `int`. -/
def Near (l : List IndexRegion) (id : Nat) : Prop :=
  (∀ r ∈ l.find? fun r => decide (id ≤ r.max), r.max < id + 2147483648) ∧
  (∀ r ∈ l.getLast?, id ≤ r.max + 2147483648)

/-- The entry of a region gives the least and the largest id of its events. -/
def Describes (ir : IndexRegion) (r : List Event) : Prop :=
  (∃ x ∈ r, ir.max = x.id) ∧ ∀ x ∈ r, ir.min ≤ x.id ∧ x.id ≤ ir.max

/-- The regions `rs` hold the events, the entries `l` describe them. -/
def Describe (l : List IndexRegion) (rs : List (List Event)) : Prop :=
  l.length = rs.length ∧ ∀ (k : Nat) ir r, l[k]? = some ir → rs[k]? = some r → Describes ir r

/-- `P` holds from some event on and, being `at or after the request (id, key)`, is
true above the id and false below it. -/
def Request (id : Nat) (P : Event → Bool) : Prop := ∀ x, (id < x.id → P x = true) ∧ (P x = true → id ≤ x.id)

/-- The first event of the file that meets `P` is the first such event of region
`pos`, or region `pos` has none and it is the first event of the next region. -/
def FoundNear (rs : List (List Event)) (P : Event → Bool) (pos : Nat) : Prop :=
  match rs[pos]? with
  | none => rs.flatten.find? P = none
  | some r => rs.flatten.find? P = r.find? P ∨
      (r.find? P = none ∧ rs.flatten.find? P = (rs.drop (pos + 1)).flatten.head?)

end Verif.C17
