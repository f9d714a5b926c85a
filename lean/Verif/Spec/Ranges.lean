import Verif.Model.Ranges
import Verif.Spec.Layout

/-! Statements of C04, C05, C06 and C42: partition creation, removal and range
commands. -/
namespace Verif.Spec

/-- The partitions of the engine in order (as listed by iteration, see C02). -/
def listing (e : Ranges) : List (Slice Nat) := Rb.inorder e.map.tree

/-- A legal layout: no empty range, no overlap, ids are 64-bit. -/
structure Disjoint (S : List (Slice Nat)) : Prop where
  apart : S.Pairwise Apart
  wf : ∀ s ∈ S, s.min ≤ s.max ∧ s.max < 18446744073709551616

/-- `S'` is `S` plus new partitions inside `[min, max]` that fill it. -/
structure Filled (S S' : List (Slice Nat)) (min max : Nat) : Prop where
  keep : ∀ s ∈ S, s ∈ S'
  inside : ∀ s ∈ S', s ∈ S ∨ (min ≤ s.min ∧ s.max ≤ max)
  cover : ∀ id, min ≤ id → id ≤ max → ∃ s ∈ S', Covers s id
  disjoint : Disjoint S'

/-- Every id of `[min, max]` is near the partitions (see `Near`). -/
def NearAll (S : List (Slice Nat)) (min max : Nat) : Prop :=
  ∀ id, min ≤ id → id ≤ max → Near S id

/-- Commands on partitions. -/
inductive RangeOp where
  /-- CREATE PARTITION min max -/
  | create (min max : Nat)
  /-- a write to an id, with the interval setting of the moment -/
  | write (interval id : Nat)
  /-- DROP PARTITION -/
  | drop (id : Nat)

/-- One command on the code model. -/
def RangeOp.step (e : Ranges) : RangeOp → Res Ranges
  | .create min max => e.fill min max
  | .write interval id => (e.lock interval id).bind fun (e', _) => .ok e'
  | .drop id => e.drop id

/-- A sequence of commands; a failing command (`err`) changes nothing. -/
def RangeOp.run : Ranges → List RangeOp → Res Ranges
  | e, [] => .ok e
  | e, o :: os =>
    match o.step e with
    | .ok e' => run e' os
    | .err _ => run e os
    | .abort s => .abort s
    | .ub s => .ub s

/-- Well formed commands. -/
def RangeOp.Valid : RangeOp → Prop
  | .create min max => min < 18446744073709551616 ∧ max < 18446744073709551616
  | .write interval id => 0 < interval ∧ interval < 9223372036854775808 ∧ id < 18446744073709551616
  | .drop id => id < 18446744073709551616

/-- Restriction under which the code is right: ids below 2^63, and the ids the
command deals with less than 2^31 from the neighbouring partitions and from each
other. -/
def RangeOp.Tame (S : List (Slice Nat)) : RangeOp → Prop
  | .create min max => max < min ∨ (max < 9223372036854775808 ∧
      (S = [] ∨ (max - min < 2147483648 ∧ NearAll S min max)))
  | .write interval id => 0 < interval ∧ interval < 2147483648 ∧
      id + interval < 9223372036854775808 ∧
      NearAll S (id - id % interval) (id - id % interval + interval - 1)
  | .drop id => id < 9223372036854775808 ∧ Near S id

/-- Every command is tame when it is executed. -/
def TameRun : Ranges → List RangeOp → Prop
  | _, [] => True
  | e, o :: os => o.Tame (listing e) ∧
    ∀ e', (o.step e = .ok e' ∨ ((∃ s, o.step e = .err s) ∧ e' = e)) → TameRun e' os

/-- All ids a command deals with lie in a window of 2^31 ids. -/
def RangeOp.InWindow (base : Nat) : RangeOp → Prop
  | .create min max => max < min ∨ (base ≤ min ∧ max < base + 2147483648)
  | .write interval id => 0 < interval ∧ interval < 2147483648 ∧ base ≤ id - id % interval ∧
      id - id % interval + interval ≤ base + 2147483648
  | .drop id => base ≤ id ∧ id < base + 2147483648

/-- C04, the full property: after every sequence of commands the layout is
legal, and a partition disappears only by a drop of one of its ids. -/
def C04Full : Prop :=
  ∀ ops : List RangeOp, (∀ o ∈ ops, o.Valid) →
    ∃ e, RangeOp.run .init ops = .ok e ∧ Disjoint (listing e) ∧
      ∀ o : RangeOp, o.Valid → ∀ e', o.step e = .ok e' → ∀ s ∈ listing e,
        s ∈ listing e' ∨ (∃ id, o = .drop id ∧ Covers s id)

/-- C05, the full property for one state. -/
def C05Full (e : Ranges) : Prop :=
  ∀ min max, min < 18446744073709551616 → max < 18446744073709551616 →
    (min ≤ max → ∃ e', e.fill min max = .ok e' ∧ Filled (listing e) (listing e') min max) ∧
    (max < min → ∃ s, e.fill min max = .err s)

/-- C06, the full property for one state. -/
def C06Full (e : Ranges) : Prop :=
  ∀ interval id, 0 < interval → interval < 9223372036854775808 → id < 18446744073709551616 →
    ∃ e' s, e.lock interval id = .ok (e', s) ∧ s ∈ listing e' ∧ Covers s id ∧
      Disjoint (listing e') ∧ (∀ u ∈ listing e, u ∈ listing e') ∧
      (∀ u ∈ listing e', u ∈ listing e ∨
        (id - id % interval ≤ u.min ∧ u.max < id - id % interval + interval)) ∧
      ((∃ u ∈ listing e, Covers u id) → e' = e)

/-- The partitions that lie entirely inside `[min, max]`. -/
def inside (S : List (Slice Nat)) (min max : Nat) : List (Slice Nat) :=
  S.filter (fun s => decide (min ≤ s.min) && decide (s.max ≤ max))

/-- C42 for commands that keep the map (refresh, move, upload, download), in one
state: the loop ends and has visited exactly the partitions inside. -/
def C42Visits (e : Ranges) (min max : Nat) : Prop :=
  ∃ fuel, Ranges.range (fun e _ => .ok e) fuel e min max =
    .ok (some (e, (inside (listing e) min max).map (·.min)))

/-- C42 for DROP, in one state: the loop ends, has dropped exactly the partitions
inside and left the others. -/
def C42Drops (e : Ranges) (min max : Nat) : Prop :=
  ∃ fuel e', Ranges.range Ranges.drop fuel e min max =
      .ok (some (e', (inside (listing e) min max).map (·.min))) ∧
    listing e' = (listing e).filter (fun s => !(decide (min ≤ s.min) && decide (s.max ≤ max)))

/-- C42, the full property. -/
def C42Full : Prop :=
  ∀ ops : List RangeOp, (∀ o ∈ ops, o.Valid) → ∀ e, RangeOp.run .init ops = .ok e →
    ∀ min max, min < 18446744073709551616 → max < 18446744073709551616 →
      C42Visits e min max ∧ C42Drops e min max

end Verif.Spec
