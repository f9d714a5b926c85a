import Verif.Proofs.Ranges

/-! C05: creating a range covers exactly the missing ids. -/
namespace Verif.C05
open Spec Ranges

/-- Partial: the property in every state reached by tame commands and for every
tame range.  Missing: ranges at 2^63 and above, or 2^31 and more from the
neighbouring partitions, for which it fails (see below). -/
theorem C05_fill_partial (ops : List RangeOp) (ht : TameRun .init ops) (e : Ranges)
    (hr : RangeOp.run .init ops = .ok e) (min max : Nat)
    (hc : (RangeOp.create min max).Tame (listing e)) :
    (min ≤ max → ∃ e', e.fill min max = .ok e' ∧ Filled (listing e) (listing e') min max) ∧
    (max < min → ∃ s, e.fill min max = .err s) := by
  obtain ⟨L, h1, h2, h3⟩ := reach_inv ht hr
  subst h3
  constructor
  · intro hmm
    rcases hc with hc | ⟨c1, c2⟩
    · omega
    · obtain ⟨e', L', f1, f2, f3, f4, f5, f6, f7⟩ := fill_spec h1 h2 hmm c1 c2
      refine ⟨e', f1, ?_⟩
      rw [inv_listing f2]
      refine filled_of f2.sorted f5 ?_ f7
      intro s hs
      rcases f6 s hs with h | ⟨a, b, _⟩
      · exact .inl h
      · exact .inr ⟨a, b⟩
  · intro hmm
    exact ⟨_, by simp only [fill]; rw [if_pos (by omega)]⟩

/-- The first range may be any range below 2^63. -/
theorem C05_fill_first_partial (min max : Nat) (hmm : min ≤ max) (hm : max < 9223372036854775808) :
    ∃ e', Ranges.init.fill min max = .ok e' ∧ Filled [] (listing e') min max :=
  (C05_fill_partial [] trivial .init rfl min max (.inr ⟨hm, .inl rfl⟩)).1 hmm

/-- The property is false of the code: with a partition that ends at 2^64-1,
filling [20, 50] also creates [0, 50]. -/
theorem C05_fill_false :
    ∃ e, RangeOp.run .init [.create 100 18446744073709551615] = .ok e ∧ ¬ C05Full e := by
  refine ⟨_, rfl, ?_⟩
  intro h
  obtain ⟨e', h1, h2⟩ := (h 20 50 (by decide) (by decide)).1 (by decide)
  have hw : ∃ e, Ranges.fill ⟨⟨.node .black .nil ⟨100, 18446744073709551615, 0⟩ .nil, 1⟩, 1⟩ 20 50 =
      .ok e ∧ listing e = [⟨0, 50, 2⟩, ⟨20, 50, 1⟩, ⟨100, 18446744073709551615, 0⟩] := ⟨_, rfl, rfl⟩
  obtain ⟨e2, w1, w2⟩ := hw
  have w1 := w1.symm.trans h1
  cases w1
  have := h2.inside ⟨0, 50, 2⟩ (by rw [w2]; simp)
  revert this
  simp [listing]

/-- A case that meets the hypotheses: filling 0..9 around [2,3] and [6,7]. -/
example : ∃ e, RangeOp.run .init [.create 2 3, .create 6 7] = .ok e ∧
    (RangeOp.create 0 9).Tame (listing e) := by
  refine ⟨_, rfl, window_tame (base := 0) (by decide) (by decide) ?_⟩
  simp [RangeOp.InWindow]

example : ((RangeOp.run .init [.create 2 3, .create 6 7]).bind fun e =>
      (e.fill 0 9).bind fun e' => .ok (listing e')) =
    .ok [⟨0, 1, 2⟩, ⟨2, 3, 0⟩, ⟨4, 5, 3⟩, ⟨6, 7, 1⟩, ⟨8, 9, 4⟩] := by
  decide +kernel

end Verif.C05
