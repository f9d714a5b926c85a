import Verif.Spec.Layout

/-! Statement of C03: partition lookup after any history of additions and
removals. -/
namespace Verif.C03
open Spec
variable {β : Type}

inductive Op (β : Type) where
  | add (s : Slice β)
  | drop (min : Nat)

/-- The code: mapping_add / mapping_remove. -/
def step (m : Mapping β) : Op β → Res (Mapping β)
  | .add s => m.add s
  | .drop k => m.remove (fun s => s.min == k)

def run : Mapping β → List (Op β) → Res (Mapping β)
  | m, [] => .ok m
  | m, o :: os => (step m o).bind fun m' => run m' os

/-- The reference: a set of ranges. -/
def refStep (S : List (Slice β)) : Op β → List (Slice β)
  | .add s => s :: S
  | .drop k => S.filter (fun s => s.min != k)

def refRun : List (Slice β) → List (Op β) → List (Slice β)
  | S, [] => S
  | S, o :: os => refRun (refStep S o) os

/-- Legal histories: new ranges are apart from the existing ones, dropped ones
exist.  `lim` restricts the added ranges (the full property has no limit). -/
def Legal (lim : List (Slice β) → Slice β → Prop) : List (Slice β) → List (Op β) → Prop
  | _, [] => True
  | S, .add s :: os => s.min ≤ s.max ∧ s.max < 18446744073709551616 ∧ (∀ u ∈ S, Apart s u) ∧
      lim S s ∧ Legal lim (refStep S (.add s)) os
  | S, .drop k :: os => (∃ u ∈ S, u.min = k) ∧ Legal lim (refStep S (.drop k)) os

/-- Lookups of `id` give the right answers. -/
def LooksUp (m : Mapping β) (S : List (Slice β)) (id : Nat) : Prop :=
  (∃ r, m.match id = .ok r ∧ IsMatch S id (r.map (·.v))) ∧
  (∃ r, m.gte id = .ok r ∧ IsGte S id (r.map (·.v)))

/-- The full property. -/
def Full (β : Type) : Prop :=
  ∀ ops : List (Op β), Legal (fun _ _ => True) [] ops →
    ∃ m, run Mapping.init ops = .ok m ∧
      ∀ id < 18446744073709551616, LooksUp m (refRun [] ops) id

end Verif.C03
