import Verif.Model.Scan

/-!
C78, stated apart from the model: what is held after a history, and which events
are live.
-/
namespace Verif.C78
open Verif.Scan

/-- How often a thing was taken and not given back. -/
def held (t : Thing) : List Act → Int
  | [] => 0
  | .take u :: r => (if u = t then 1 else 0) + held t r
  | .give u :: r => held t r - (if u = t then 1 else 0)

/-- At every moment: nothing is given back that is not held, nothing is taken
twice, and no two partitions are locked. -/
def Orderly (tr : List Act) : Prop :=
  ∀ n, (∀ t, held t (tr.take n) = 0 ∨ held t (tr.take n) = 1) ∧
    ∀ i j, held (.access i) (tr.take n) = 1 → held (.access j) (tr.take n) = 1 → i = j

/-- In the end everything was given back. -/
def AllBack (tr : List Act) : Prop := ∀ t, held t tr = 0

/-- Only memory is held: no lock, no context, no place in a list. -/
def OnlyMemory (tr : List Act) : Prop := ∀ t, held t tr ≠ 0 → ∃ m, t = .mem m

/-- The events in the file of a partition. -/
def stored (p : Part) : List Ev :=
  match p.file with
  | none => []
  | some f => f.regions.flatten

/-- Strictly ascending ids. -/
def Ascending (l : List Ev) : Prop := l.Pairwise fun x y => x.id < y.id

/-- Partitions as the engine has them: disjoint and ascending, none ends at the
last id, every source is sorted and within the bounds, no region is empty. -/
def Proper (ps : List Part) : Prop :=
  (ps.Pairwise fun p q => p.max < q.min) ∧
  ∀ p ∈ ps, p.max + 1 < 2 ^ 64 ∧ p.min ≤ p.max ∧ Ascending p.a ∧ Ascending p.b ∧ Ascending (stored p) ∧
    (∀ e ∈ p.a ++ p.b ++ stored p, p.min ≤ e.id ∧ e.id ≤ p.max) ∧
    ∀ f, p.file = some f → ∀ r ∈ f.regions, r ≠ []

/-- The event that counts for its id: from the newest source that has one. -/
def Newest (p : Part) (e : Ev) : Prop :=
  e ∈ p.a ∨
  (e ∈ p.b ∧ ∀ x ∈ p.a, x.id ≠ e.id) ∨
  (e ∈ stored p ∧ ∀ x ∈ p.a ++ p.b, x.id ≠ e.id)

/-- What a reader who starts at the key has to get. -/
def Live (ps : List Part) (key : Option Nat) (e : Ev) : Prop :=
  (∃ p ∈ ps, Newest p e) ∧ e.del = false ∧ ∀ k, key = some k → k ≤ e.id

/-- The events an application has got: from the first read after a call that
succeeded. -/
def given : Bool → List Reply → List Ev
  | _, [] => []
  | _, .next .one :: rs => given true rs
  | _, .next .zero :: rs => given false rs
  | _, .next .failed :: rs => given false rs
  | true, .read (some e) :: rs => e :: given false rs
  | true, .read none :: rs => given false rs
  | false, .read _ :: rs => given false rs

/-- An application that reads everything: it reads after every call of next, and
calls next again when it has failed. -/
def thorough : Nat → List Call
  | 0 => []
  | n + 1 => .next :: .read :: thorough n

/-- How many events there are, counting all versions. -/
def size (ps : List Part) : Nat := (ps.map fun p => p.a.length + p.b.length + (stored p).length).sum

/-- C78 in full.  Whatever fails, everything taken is given back once; an
application that repeats failed calls until the end gets all live events, no
other event, and in order. -/
def Full : Prop := ∀ (f : Nat → Bool) ps key fuel n rs s, Proper ps →
  session ps fuel key (.read :: thorough n) f start = .ok (some rs) s →
  (Orderly s.tr ∧ AllBack s.tr) ∧
  (∀ e, .read (some e) ∈ rs → Live ps key e) ∧
  Ascending (given true rs) ∧
  (.next .zero ∈ rs → ∀ e, Live ps key e → e ∈ given true rs)

end Verif.C78
