import Verif.Proofs.RbBalance
import Verif.Spec.C02

/-! Helper lemmas for C02. -/
namespace Verif.C02
open Rb Spec
variable {α : Type}

/-- Internal invariant. -/
structure Inv (cmp : α → α → Int) (S : α → Prop) (t : Tree α) : Prop where
  valid : Valid t
  sorted : (inorder t).Pairwise (fun a b => cmp a b < 0)
  mem : ∀ x, x ∈ inorder t ↔ S x

theorem signMono_of_sorted {cmp : α → α → Int} (hc : LawfulCmp cmp) (x : α) {l : List α}
    (h : l.Pairwise (fun a b => cmp a b < 0)) : SignMono (fun a => cmp a x) l := by
  refine h.imp ?_
  intro a b hab
  refine ⟨fun h => ?_, fun h => ?_, fun h => ?_, fun h => ?_⟩
  · rw [hc.gt_iff] at h ⊢; exact hc.lt_trans _ _ _ h hab
  · exact hc.lt_trans _ _ _ hab h
  · have h : cmp a x = 0 := h
    have h' : cmp x a = 0 := by
      have := hc.gt_iff x a; have := hc.gt_iff a x; omega
    rw [hc.gt_iff]; exact hc.eq_lt _ _ _ h' hab
  · exact hc.lt_eq _ _ _ hab h

theorem step_inv {cmp : α → α → Int} (hc : LawfulCmp cmp) {S : α → Prop} {t : Tree α}
    (h : Inv cmp S t) (o : Op α) : ∃ t', step cmp t o = .ok t' ∧ Inv cmp (refStep cmp S o) t' := by
  cases o with
  | insert x =>
    have hm := signMono_of_sorted hc x h.sorted
    rcases get_spec (cmp := fun a => .ok (cmp a x)) (fun a _ => rfl) hm with
      ⟨rfl, hg⟩ | ⟨y, hg, hy, hin, hlo, hhi, hr, hl⟩
    · refine ⟨.node .black .nil x .nil, by simp only [step, hg, Res.bind_ok]; rfl, ?_, ?_, ?_⟩
      · exact ⟨1, .black .nil .nil⟩
      · simp
      · intro z
        have := h.mem
        simp at this
        simp [refStep, this]
    · by_cases h0 : cmp y.v x = 0
      · refine ⟨t, by simp [step, hg, h0], h.valid, h.sorted, ?_⟩
        intro z
        rw [h.mem]
        simp only [refStep]
        refine ⟨.inl, ?_⟩
        rintro (hz | ⟨rfl, hz⟩)
        · exact hz
        · exact absurd h0 (hz y.v ((h.mem _).1 (by rw [hin]; simp)))
      · obtain ⟨t', lo, hi, h1, h2, h3, h4, h5, h6⟩ := set_spec h.valid hy hm hr hl h0 x
        refine ⟨t', by simp [step, hg, h0, h1], h2, ?_, ?_⟩
        · have hs := h.sorted
          rw [h3, List.pairwise_append] at hs
          obtain ⟨s1, s2, s3⟩ := hs
          rw [h4, List.pairwise_append, List.pairwise_cons]
          refine ⟨s1, ⟨fun a ha => (hc.gt_iff a x).1 (h6 a ha), s2⟩, ?_⟩
          intro a ha b hb
          simp at hb
          rcases hb with rfl | hb
          · exact h5 a ha
          · exact s3 a ha b hb
        · intro z
          have hz : z ∈ inorder t' ↔ z ∈ inorder t ∨ z = x := by
            rw [h3, h4]; simp only [List.mem_append, List.mem_cons]; grind
          rw [hz, h.mem]
          simp only [refStep]
          constructor
          · rintro (hz | rfl)
            · exact .inl hz
            · refine .inr ⟨rfl, ?_⟩
              intro w hw
              have := (h.mem w).2 hw
              rw [h3] at this
              simp at this
              rcases this with hw | hw
              · have := h5 w hw; omega
              · have := h6 w hw; omega
          · rintro (hz | ⟨rfl, _⟩)
            · exact .inl hz
            · exact .inr rfl
  | remove x =>
    have hm := signMono_of_sorted hc x h.sorted
    rcases get_spec (cmp := fun a => .ok (cmp a x)) (fun a _ => rfl) hm with
      ⟨rfl, hg⟩ | ⟨y, hg, hy, hin, hlo, hhi, hr, hl⟩
    · refine ⟨.nil, by simp [step, hg], h.valid, h.sorted, ?_⟩
      intro z
      rw [h.mem]
      have := h.mem z
      simp at this
      simp [refStep, this]
    · by_cases h0 : cmp y.v x = 0
      · obtain ⟨t', h1, h2⟩ := remove_valid (n := y) (by rw [hy]; exact h.valid)
        have h3 := remove_inorder h1
        have h3 : inorder t' = y.lo ++ y.hi := h3
        have hs := h.sorted
        rw [hin, List.pairwise_append, List.pairwise_cons] at hs
        obtain ⟨s1, ⟨s2, s3⟩, s4⟩ := hs
        refine ⟨t', by simp [step, hg, h0, h1], h2, ?_, ?_⟩
        · rw [h3, List.pairwise_append]
          exact ⟨s1, s3, fun a ha b hb => s4 a ha b (by simp [hb])⟩
        · intro z
          simp only [refStep]
          rw [← h.mem, hin, h3]
          simp only [List.mem_append, List.mem_cons]
          constructor
          · rintro (hz | hz)
            · have := hlo (by omega) z hz
              exact ⟨.inl hz, by omega⟩
            · have := hhi (by omega) z hz
              exact ⟨.inr (.inr hz), by omega⟩
          · rintro ⟨hz | rfl | hz, hne⟩
            · exact .inl hz
            · exact absurd h0 hne
            · exact .inr hz
      · refine ⟨t, by simp [step, hg, h0], h.valid, h.sorted, ?_⟩
        intro z
        rw [h.mem]
        simp only [refStep]
        refine ⟨fun hz => ⟨hz, fun hzx => ?_⟩, fun hz => hz.1⟩
        have := (h.mem z).2 hz
        rw [hin] at this
        simp at this
        rcases this with hw | rfl | hw
        · by_cases hneg : cmp y.v x < 0
          · have := hlo (by omega) z hw; omega
          · have := (hl (by omega)).2 z hw; omega
        · exact h0 hzx
        · by_cases hneg : cmp y.v x < 0
          · have := (hr (by omega)).2 z hw; omega
          · have := hhi (by omega) z hw; omega

theorem run_inv {cmp : α → α → Int} (hc : LawfulCmp cmp) (ops : List (Op α)) :
    ∀ (S : α → Prop) (t : Tree α), Inv cmp S t →
      ∃ t', run cmp t ops = .ok t' ∧ Inv cmp (refRun cmp S ops) t' := by
  induction ops with
  | nil => intro S t h; exact ⟨t, rfl, h⟩
  | cons o os ih =>
    intro S t h
    obtain ⟨t1, h1, h2⟩ := step_inv hc h o
    obtain ⟨t2, h3, h4⟩ := ih _ _ h2
    exact ⟨t2, by simp [run, h1, h3], h4⟩

theorem forward_eq (t : Tree α) (fuel : Nat) (h : (inorder t).length ≤ fuel) :
    forward fuel t = inorder t := by
  unfold forward
  split
  · next h1 => rw [min_none h1]; rfl
  · next x h1 =>
    obtain ⟨h2, h3⟩ := min_some h1
    have e := x.inorder_eq
    rw [h2, h3] at e
    rw [walkNext_eq x fuel (by rw [e] at h; simp at h; omega), e]; rfl

theorem backward_eq (t : Tree α) (fuel : Nat) (h : (inorder t).length ≤ fuel) :
    backward fuel t = (inorder t).reverse := by
  unfold backward
  split
  · next h1 => rw [max_none h1]; rfl
  · next x h1 =>
    obtain ⟨h2, h3⟩ := max_some h1
    have e := x.inorder_eq
    rw [h2, h3] at e
    rw [walkPrev_eq x fuel (by rw [e] at h; simp at h; omega), e]; simp

theorem Inv.indexOf {cmp : α → α → Int} (hc : LawfulCmp cmp) {S : α → Prop} {t : Tree α}
    (h : Inv cmp S t) : IndexOf cmp S t := by
  refine ⟨⟨inorder t, h.sorted, h.mem, fun fuel hf => ⟨forward_eq t fuel hf, backward_eq t fuel hf⟩,
    h.valid.depth_le⟩, ?_⟩
  rintro x ⟨z, hz, hzx⟩
  have hm := signMono_of_sorted hc x h.sorted
  have hz := (h.mem z).2 hz
  rcases get_spec (cmp := fun a => .ok (cmp a x)) (fun a _ => rfl) hm with
      ⟨rfl, hg⟩ | ⟨y, hg, hy, hin, hlo, hhi, hr, hl⟩
  · simp at hz
  · have h0 : cmp y.v x = 0 := by
      rw [hin] at hz
      simp at hz
      rcases hz with hw | rfl | hw
      · by_cases hneg : cmp y.v x ≤ 0
        · have := hlo (by omega) z hw; omega
        · have := (hl (by omega)).2 z hw; omega
      · exact hzx
      · by_cases hneg : cmp y.v x < 0
        · have := (hr (by omega)).2 z hw; omega
        · have := hhi (by omega) z hw; omega
    rw [h0] at hg
    exact ⟨y, hg, (h.mem _).1 (by rw [hin]; simp), h0⟩

end Verif.C02
