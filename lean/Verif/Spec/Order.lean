import Verif.Model.Rbtree

/-! Specification vocabulary: total orders given by a comparison function,
depth of a binary tree, and reference sets. -/
namespace Verif.Spec
variable {α : Type}

/-- `cmp` is a three-way comparison of a total preorder: only the sign of its
result matters. -/
structure LawfulCmp (cmp : α → α → Int) : Prop where
  gt_iff : ∀ a b, cmp a b > 0 ↔ cmp b a < 0
  lt_trans : ∀ a b c, cmp a b < 0 → cmp b c < 0 → cmp a c < 0
  lt_eq : ∀ a b c, cmp a b < 0 → cmp b c = 0 → cmp a c < 0
  eq_lt : ∀ a b c, cmp a b = 0 → cmp b c < 0 → cmp a c < 0

/-- Number of nodes on the longest root-to-leaf path. -/
def depth : Rb.Tree α → Nat
  | .nil => 0
  | .node _ l _ r => Max.max (depth l) (depth r) + 1

end Verif.Spec
