import Verif.Model.Mapping

/-! Specification of partition layouts: sets of disjoint id ranges. -/
namespace Verif.Spec
variable {β : Type}

/-- The ranges are disjoint. -/
def Apart (s u : Slice β) : Prop := s.max < u.min ∨ u.max < s.min

/-- An id is covered by a slice. -/
def Covers (s : Slice β) (id : Nat) : Prop := s.min ≤ id ∧ id ≤ s.max

/-- The nearest range start at or below `id` and the nearest above it are less
than 2^31 away.  (The lookup narrows the distance to the last inspected
partition, one of these two, to a 32-bit `int`.) -/
def Near (S : List (Slice β)) (id : Nat) : Prop :=
  ∀ s ∈ S,
    (s.min ≤ id → (∀ u ∈ S, u.min ≤ id → u.min ≤ s.min) → id - s.min < 2147483648) ∧
    (id < s.min → (∀ u ∈ S, id < u.min → s.min ≤ u.min) → s.min - id < 2147483648)

/-- `r` is the partition that covers `id`. -/
def IsMatch (S : List (Slice β)) (id : Nat) (r : Option (Slice β)) : Prop :=
  match r with
  | some s => s ∈ S ∧ Covers s id
  | none => ∀ s ∈ S, ¬ Covers s id

/-- `r` is the partition that covers `id`, or else the next one above. -/
def IsGte (S : List (Slice β)) (id : Nat) (r : Option (Slice β)) : Prop :=
  match r with
  | some s => s ∈ S ∧ id ≤ s.max ∧ ∀ u ∈ S, id ≤ u.max → s.min ≤ u.min
  | none => ∀ s ∈ S, s.max < id

end Verif.Spec
