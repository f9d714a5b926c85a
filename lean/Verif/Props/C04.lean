import Verif.Proofs.Ranges

/-! C04: partitions never overlap. -/
namespace Verif.C04
open Spec Ranges

/-- Partial: the property for commands that are tame when executed (ids below
2^63 and less than 2^31 from the neighbouring partitions).  Missing: other
commands, for which it fails (see below). -/
theorem C04_no_overlap_partial (ops : List RangeOp) (ht : TameRun .init ops) :
    ∃ e, RangeOp.run .init ops = .ok e ∧ Disjoint (listing e) ∧
      ∀ o : RangeOp, o.Tame (listing e) → ∀ e', o.step e = .ok e' → ∀ s ∈ listing e,
        s ∈ listing e' ∨ (∃ id, o = .drop id ∧ Covers s id) := by
  obtain ⟨e, L, r1, r2, r3⟩ := run_spec ops .init [] init_inv.1 init_inv.2 ht
  have hl := inv_listing r2
  subst hl
  refine ⟨e, r1, sorted_disjoint r2.sorted, ?_⟩
  intro o ho e' he' s hs
  rcases step_spec r2 r3 o ho with ⟨e2, L', s1, s2, s3, s4⟩ | ⟨s', s1⟩
  · rw [he'] at s1; cases s1
    rw [inv_listing s2]
    exact s4 s hs
  · rw [he'] at s1; cases s1

/-- The same for a simple condition on the commands: all ids in a window of 2^31
ids below 2^63. -/
theorem C04_no_overlap_window_partial (base : Nat) (hb : base + 4294967296 < 9223372036854775808)
    (ops : List RangeOp) (ho : ∀ o ∈ ops, o.InWindow base) :
    ∃ e, RangeOp.run .init ops = .ok e ∧ Disjoint (listing e) := by
  obtain ⟨e, h1, h2, _⟩ := C04_no_overlap_partial ops
    (window_run hb ops .init [] init_inv.1 init_inv.2 (by simp) ho)
  exact ⟨e, h1, h2⟩

/-- CREATE PARTITION 100..2^64-1 and then 20..50 creates [20,50] and [0,50]. -/
def wrapOps : List RangeOp := [.create 100 18446744073709551615, .create 20 50]

theorem C04_create_overlaps :
    ∃ e, RangeOp.run .init wrapOps = .ok e ∧
      listing e = [⟨0, 50, 2⟩, ⟨20, 50, 1⟩, ⟨100, 18446744073709551615, 0⟩] := ⟨_, rfl, rfl⟩

/-- Writes of ids 1, 2148000001, 2151000001 with the default interval: the
second partition is lost. -/
theorem C04_partition_lost :
    ∃ e, RangeOp.run .init [.write 3000000 1, .write 3000000 2148000001, .write 3000000 2151000001] =
        .ok e ∧ listing e = [⟨2151000000, 2153999999, 2⟩, ⟨0, 2999999, 0⟩] := ⟨_, rfl, rfl⟩

/-- The property is false of the code. -/
theorem C04_no_overlap_false : ¬ C04Full := by
  intro h
  obtain ⟨e, h1, h2, _⟩ := h wrapOps (by simp [wrapOps, RangeOp.Valid])
  obtain ⟨e', h3, h4⟩ := C04_create_overlaps
  rw [h3] at h1; cases h1
  have := h2.apart
  rw [h4] at this
  simp [Apart] at this

/-- The hypotheses of the window theorem are met by creations, writes (between,
before and after) and a drop. -/
example : ∀ o ∈ [RangeOp.create 1000 1999, .write 300 950, .write 300 2500, .drop 1500,
    .write 300 1500], o.InWindow 0 := by
  simp [RangeOp.InWindow]

example : ∃ e, RangeOp.run .init [.create 1000 1999, .write 300 950, .write 300 2500, .drop 1500,
    .write 300 1500] = .ok e ∧
    listing e = [⟨900, 999, 1⟩, ⟨1500, 1799, 3⟩, ⟨2400, 2699, 2⟩] := ⟨_, rfl, rfl⟩

end Verif.C04
