import Verif.Spec.Order

/-!
C02: the ordered index keeps exactly its entries, in order, and stays balanced.

`step` is the way the callers use the tree: search, then link at the node the
search ended on (engine/io/mapping.h:80-90), or unlink the found node
(engine/io/mapping.h:92-98).
-/
namespace Verif.C02
open Rb Spec
variable {α : Type}

inductive Op (α : Type) where
  | insert (x : α)
  | remove (x : α)

/-- Search-then-link and search-then-unlink on the code model. -/
def step (cmp : α → α → Int) (t : Tree α) : Op α → Res (Tree α)
  | .insert x =>
    (get (fun a => .ok (cmp a x)) t []).bind fun
      | none => set none 0 x
      | some (rc, y) => if rc = 0 then .ok t else set (some y) rc x
  | .remove x =>
    (get (fun a => .ok (cmp a x)) t []).bind fun
      | none => .ok t
      | some (rc, y) => if rc = 0 then remove y else .ok t

def run (cmp : α → α → Int) : Tree α → List (Op α) → Res (Tree α)
  | t, [] => .ok t
  | t, o :: os => (step cmp t o).bind fun t' => run cmp t' os

/-- Reference: the set of entries. -/
def refStep (cmp : α → α → Int) (S : α → Prop) : Op α → α → Prop
  | .insert x => fun y => S y ∨ (y = x ∧ ∀ z, S z → cmp z x ≠ 0)
  | .remove x => fun y => S y ∧ cmp y x ≠ 0

def refRun (cmp : α → α → Int) : (α → Prop) → List (Op α) → α → Prop
  | S, [] => S
  | S, o :: os => refRun cmp (refStep cmp S o) os

/-- What a correct index over the set `S` looks like from outside. -/
structure IndexOf (cmp : α → α → Int) (S : α → Prop) (t : Tree α) : Prop where
  /-- there is one listing, ascending, of exactly the entries, ... -/
  listing : ∃ L : List α,
    L.Pairwise (fun a b => cmp a b < 0) ∧ (∀ x, x ∈ L ↔ S x) ∧
    -- ... which forward and backward iteration visit,
    (∀ fuel, L.length ≤ fuel → forward fuel t = L ∧ backward fuel t = L.reverse) ∧
    -- ... and the depth is logarithmic
    depth t ≤ 2 * Nat.log2 (L.length + 1)
  /-- a lookup finds an equal entry if there is one -/
  lookup : ∀ x, (∃ z, S z ∧ cmp z x = 0) →
    ∃ y, get (fun a => .ok (cmp a x)) t [] = .ok (some (0, y)) ∧ S y.v ∧ cmp y.v x = 0

end Verif.C02
