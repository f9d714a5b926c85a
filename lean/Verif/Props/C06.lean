import Verif.Proofs.Ranges

/-! C06: a write is accepted for every id. -/
namespace Verif.C06
open Spec Ranges

/-- Partial: the property in every state reached by tame commands, for every
tame write.  Missing: ids or intervals near or above 2^63 and partitions 2^31 or
more away, for which it fails (see below). -/
theorem C06_write_finds_partition_partial (ops : List RangeOp) (ht : TameRun .init ops) (e : Ranges)
    (hr : RangeOp.run .init ops = .ok e) (interval id : Nat)
    (hw : (RangeOp.write interval id).Tame (listing e)) :
    ∃ e' s, e.lock interval id = .ok (e', s) ∧ s ∈ listing e' ∧ Covers s id ∧
      Disjoint (listing e') ∧ (∀ u ∈ listing e, u ∈ listing e') ∧
      (∀ u ∈ listing e', u ∈ listing e ∨
        (id - id % interval ≤ u.min ∧ u.max < id - id % interval + interval)) ∧
      ((∃ u ∈ listing e, Covers u id) → e' = e) := by
  obtain ⟨L, h1, h2, h3⟩ := reach_inv ht hr
  subst h3
  obtain ⟨t1, t2, t3, t4⟩ := hw
  obtain ⟨e', L', s, f1, f2, f3, f4, f5, f6, f7, f8⟩ := lock_spec h1 h2 t1 t2 t3 t4
  have hl := inv_listing f2
  subst hl
  refine ⟨e', s, f1, f4, f5, sorted_disjoint f2.sorted, f6, ?_, fun h => (f8 h).1⟩
  intro u hu
  rcases f7 u hu with h | ⟨a, b, _⟩
  · exact .inl h
  · simp only [intervalOf] at a b
    exact .inr ⟨a, by omega⟩

/-- With the default interval a write of the largest id to an empty database
fails. -/
theorem C06_largest_id_fails :
    Ranges.init.lock 3000000 18446744073709551615 = .err "fill: invalid partition interval" := rfl

/-- The property is false of the code. -/
theorem C06_write_finds_partition_false : ¬ C06Full .init := by
  intro h
  obtain ⟨e', s, h1, _⟩ := h 3000000 18446744073709551615 (by decide) (by decide) (by decide)
  have h2 := C06_largest_id_fails.symm.trans h1
  cases h2

/-- Also for ids of existing partitions: after writes of 1, 2148000001 and
2151000001 a write of 2148000002 does not find the partition of 2148000001 and
creates a second one. -/
theorem C06_existing_partition_missed :
    ∃ e, RangeOp.run .init [.write 3000000 1, .write 3000000 2148000001, .write 3000000 2151000001] =
        .ok e ∧ ∃ e' s, e.lock 3000000 2148000002 = .ok (e', s) ∧ s.val = 3 ∧ e'.map.count = 4 :=
  ⟨_, rfl, _, _, rfl, rfl, rfl⟩

/-- A case that meets the hypotheses: interval 10, partitions [3,4] and [8,20],
a write of 6 creates [5,7]. -/
example : ∃ e, RangeOp.run .init [.create 3 4, .create 8 20] = .ok e ∧
    (RangeOp.write 10 6).Tame (listing e) ∧
    ∃ e', e.lock 10 6 = .ok (e', ⟨5, 7, 3⟩) ∧
      listing e' = [⟨0, 2, 2⟩, ⟨3, 4, 0⟩, ⟨5, 7, 3⟩, ⟨8, 20, 1⟩] := by
  refine ⟨_, rfl, window_tame (base := 0) (by decide) (by decide) ?_, _, rfl, rfl⟩
  simp [RangeOp.InWindow]

end Verif.C06
