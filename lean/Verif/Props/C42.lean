import Verif.Proofs.C42

/-! C42: range commands act on exactly the partitions inside the range. -/
namespace Verif.C42
open Spec Ranges

/-- Partial (commands that keep the map): the property when `min` is not strictly
inside a partition and the positions the loop looks up are near the partitions
and below 2^63.  Missing: a range that starts inside a partition and ranges
reaching 2^64-1, for which it fails (see below). -/
theorem C42_range_visits_partial (ops : List RangeOp) (ht : TameRun .init ops) (e : Ranges)
    (hr : RangeOp.run .init ops = .ok e) (min max : Nat)
    (hstart : ∀ s ∈ listing e, s.min < min → s.max < min)
    (hm : min < 9223372036854775808) (hn : Near (listing e) min)
    (hp : ∀ s ∈ listing e, min ≤ s.min → s.max ≤ max →
      s.max + 1 < 9223372036854775808 ∧ Near (listing e) (s.max + 1)) :
    C42Visits e min max := by
  obtain ⟨L, h1, h2, h3⟩ := reach_inv ht hr
  rw [← h3] at h1
  obtain ⟨lo, hi, e1, e2, e3⟩ := split_at h1.sorted hstart
  have hwf := h1.sorted.wf
  rw [e1] at h1 hn hp hwf
  refine ⟨hi.length + 1, ?_⟩
  rw [range_keep (fun _ => rfl) (hi.length + 1) lo hi min h1 e2 e3 hm hn
    (fun s hs hmx => hp s (by simp [hs]) (e3 s hs) hmx) (by omega)]
  rw [e1, inside_eq, List.filter_append, inside_below (lo := lo)
    (fun s hs => ⟨(hwf s (by simp [hs])).1, e2 s hs⟩)]
  rfl

/-- Partial (DROP): as above, for ranges shorter than 2^31. -/
theorem C42_range_drops_partial (ops : List RangeOp) (ht : TameRun .init ops) (e : Ranges)
    (hr : RangeOp.run .init ops = .ok e) (min max : Nat)
    (hstart : ∀ s ∈ listing e, s.min < min → s.max < min)
    (hm : max + 1 < 9223372036854775808) (hw : min ≤ max + 1 ∧ max + 1 - min < 2147483648)
    (hlim : ∀ s ∈ listing e, s.max + 1 < 9223372036854775808)
    (hn : NearAll ((listing e).filter (fun s => !(decide (min ≤ s.min) && decide (s.max ≤ max))))
      min (max + 1)) :
    C42Drops e min max := by
  obtain ⟨L, h1, h2, h3⟩ := reach_inv ht hr
  rw [← h3] at h1 h2
  obtain ⟨lo, hi, e1, e2, e3⟩ := split_at h1.sorted hstart
  have hwf := h1.sorted.wf
  rw [e1] at h1 h2 hlim hn hwf
  have hlo0 : ∀ s ∈ lo, s.min < min := fun s hs => by
    have := hwf s (by simp [hs]); have := e2 s hs; omega
  obtain ⟨e', r1, r2⟩ := range_drop (max := max) (min0 := min) (hi.length + 1) e lo hi min h1 h2
    (Nat.le_refl _) e2 e3 (by omega) hw.1
    (by
      intro A B hAB hA id i1 i2 s hs
      have key : isIn min max s = false → s ∈ (lo ++ hi).filter
          (fun s => !(decide (min ≤ s.min) && decide (s.max ≤ max))) := by
        intro hf
        refine List.mem_filter.2 ⟨?_, ?_⟩
        · rw [hAB]; simp at hs ⊢; grind
        · simp only [isIn] at hf; simp only [hf, Bool.not_false]
      have sub : ∀ u ∈ (lo ++ hi).filter
          (fun s => !(decide (min ≤ s.min) && decide (s.max ≤ max))), u ∈ lo ++ B := by
        intro u hu
        obtain ⟨u1, u2⟩ := List.mem_filter.1 hu
        rw [hAB] at u1
        simp at u1 ⊢
        rcases u1 with u1 | u1 | u1
        · exact .inl u1
        · exfalso
          have a1 := hA u u1
          have a2 := e3 u (by rw [hAB]; simp [u1])
          simp at u2; omega
        · exact .inr u1
      cases hc : isIn min max s with
      | true =>
        simp [isIn] at hc
        have hwf' := hwf s (by rw [hAB]; simp at hs ⊢; grind)
        exact ⟨fun _ _ => by omega, fun _ _ => by omega⟩
      | false =>
        have := hn id i1 i2 s (key hc)
        exact ⟨fun a b => this.1 a (fun u hu => b u (sub u hu)),
          fun a b => this.2 a (fun u hu => b u (sub u hu))⟩)
    (fun s hs => hlim s (by simp [hs])) (by omega)
  refine ⟨hi.length + 1, e', ?_, ?_⟩
  · rw [r1, e1, inside_eq, List.filter_append, inside_below (lo := lo)
      (fun s hs => ⟨(hwf s (by simp [hs])).1, e2 s hs⟩)]
    rfl
  · rw [inv_listing r2, e1, List.filter_append]
    congr 1
    refine (List.filter_eq_self.2 ?_).symm
    intro s hs
    have := hlo0 s hs
    simp; omega

/-- A range that starts inside a partition acts on nothing: with [0,9] and
[10,19], the range 5..30 does not reach [10,19]. -/
theorem C42_start_inside_partition :
    ∃ e, RangeOp.run .init [.create 0 9, .create 10 19] = .ok e ∧
      ∀ fuel, Ranges.range Ranges.drop (fuel + 1) e 5 30 = .ok (some (e, [])) := by
  refine ⟨_, rfl, fun fuel => ?_⟩
  rfl

/-- A partition that ends at 2^64-1: the loop visits it for ever. -/
theorem C42_never_ends :
    ∃ e, RangeOp.run .init [.create 100 18446744073709551615] = .ok e ∧
      ∀ fuel, Ranges.range (fun e _ => .ok e) fuel e 0 18446744073709551615 = .ok none := by
  refine ⟨_, rfl, fun fuel => ?_⟩
  induction fuel with
  | zero => rfl
  | succ n ih =>
    have hstep : ∀ e, Ranges.foreach e 0 18446744073709551615 = .ok (some (100, 0)) →
        Ranges.range (fun e _ => .ok e) (n + 1) e 0 18446744073709551615 =
          (Ranges.range (fun e _ => .ok e) n e 0 18446744073709551615).bind fun
            | none => .ok none
            | some (e'', ms) => .ok (some (e'', 100 :: ms)) := by
      intro e he; simp only [Ranges.range, he, Res.bind_ok]; rfl
    rw [hstep _ rfl, ih]
    rfl

/-- DROP of a range that such a partition ends starts over below the range: of [0,9]
and [100,2^64-1] the range 100..2^64-1 drops both. -/
theorem C42_drops_below : ∃ e e', RangeOp.run .init [.create 0 9, .create 100 18446744073709551615] = .ok e ∧
    Ranges.range Ranges.drop 3 e 100 18446744073709551615 = .ok (some (e', [100, 0])) ∧ listing e' = [] :=
  ⟨_, _, rfl, rfl, rfl⟩

/-- The property is false of the code. -/
theorem C42_range_false : ¬ C42Full := by
  intro h
  obtain ⟨e, h1, h2⟩ := C42_start_inside_partition
  obtain ⟨_, fuel, e', h3, h4⟩ := h [.create 0 9, .create 10 19] (by simp [RangeOp.Valid]) e h1 5 30
    (by decide) (by decide)
  cases fuel with
  | zero => simp [Ranges.range] at h3
  | succ n =>
    rw [h2 n] at h3
    simp only [Res.ok.injEq, Option.some.injEq, Prod.mk.injEq] at h3
    have h5 := h3.2
    have hl : listing e = [⟨0, 9, 0⟩, ⟨10, 19, 1⟩] := by
      have : RangeOp.run .init [.create 0 9, .create 10 19] =
        .ok ⟨⟨.node .black .nil ⟨0, 9, 0⟩ (.node .red .nil ⟨10, 19, 1⟩ .nil), 2⟩, 2⟩ := rfl
      rw [this] at h1
      cases h1; rfl
    rw [hl] at h5
    simp [inside] at h5

/-- A case that meets the hypotheses: [0,9], [10,19], [30,39], range 10..35. -/
example : ∃ e, RangeOp.run .init [.create 0 9, .create 10 19, .create 30 39] = .ok e ∧
    (∀ s ∈ listing e, s.min < 10 → s.max < 10) ∧ C42Visits e 10 35 ∧ C42Drops e 10 35 ∧
    inside (listing e) 10 35 = [⟨10, 19, 1⟩] := by
  refine ⟨_, rfl, by decide, ⟨3, rfl⟩, ⟨3, _, rfl, by decide⟩, by decide⟩

end Verif.C42
