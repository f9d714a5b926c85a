import Verif.Proofs.Ranges

namespace Verif.C42
open Spec Ranges Rb Mapping

/-- The test of the range commands as a Boolean. -/
def isIn (min max : Nat) (s : Slice Nat) : Bool := decide (min ≤ s.min) && decide (s.max ≤ max)

theorem inside_eq (S : List (Slice Nat)) (min max : Nat) : inside S min max = S.filter (isIn min max) := rfl

theorem inside_below {lo : List (Slice Nat)} {min max : Nat}
    (h : ∀ s ∈ lo, s.min ≤ s.max ∧ s.max < min) : lo.filter (isIn min max) = [] := by
  rw [List.filter_eq_nil_iff]
  intro s hs
  have := h s hs
  simp [isIn]; omega

/-- One engine_foreach. -/
theorem foreach_spec {e : Ranges} {lo hi : List (Slice Nat)} (h : Inv e.map (lo ++ hi)) {min max : Nat}
    (hlo : ∀ s ∈ lo, s.max < min) (hhi : ∀ s ∈ hi, min ≤ s.min)
    (hm : min < 9223372036854775808) (hn : Near (lo ++ hi) min) :
    (∃ s hi', hi = s :: hi' ∧ s.max ≤ max ∧ e.foreach min max = .ok (some (s.min, s.max + 1))) ∨
    (hi.filter (isIn min max) = [] ∧ e.foreach min max = .ok none) := by
  obtain ⟨r, g1, g2, _⟩ := gte_spec h min hm hn
  have hwf := h.sorted.wf
  simp only [Ranges.foreach, lockGte, g1, Res.bind_ok]
  cases hi with
  | nil =>
    right
    cases r with
    | none => exact ⟨rfl, rfl⟩
    | some x =>
      exfalso
      have h1 := g2.1
      simp at h1
      have := hlo _ h1; have := g2.2.1; dsimp only [Option.map] at this; omega
  | cons s hi' =>
    have hs1 := hhi s (by simp)
    have hs2 := hwf s (by simp)
    have hparts := h.sorted.parts
    have hr : ∃ x, r = some x ∧ x.v = s := by
      cases r with
      | none =>
        have := g2 s (by simp); omega
      | some x =>
        refine ⟨x, rfl, ?_⟩
        have k1 := g2.1
        have k2 : min ≤ x.v.max := g2.2.1
        have k3 : x.v.min ≤ s.min := g2.2.2 s (by simp) (by omega)
        simp at k1
        rcases k1 with k1 | k1 | k1
        · have := hlo _ k1; omega
        · exact k1
        · have := hparts.2.1 _ k1; omega
    obtain ⟨x, rfl, rfl⟩ := hr
    simp only [Option.map]
    by_cases hmx : x.v.max ≤ max
    · left
      refine ⟨x.v, hi', rfl, hmx, ?_⟩
      rw [if_pos ⟨hs1, hmx⟩, wrapU64_small (by omega)]
    · right
      rw [if_neg (by omega)]
      refine ⟨?_, rfl⟩
      rw [List.filter_eq_nil_iff]
      intro u hu
      simp at hu
      simp only [isIn, Bool.and_eq_true, decide_eq_true_eq, not_and, Nat.not_le]
      rcases hu with rfl | hu
      · omega
      · have := hparts.2.1 u hu; omega

theorem filter_min_irrel {hi : List (Slice Nat)} {a b max : Nat} (ha : ∀ s ∈ hi, a ≤ s.min)
    (hb : ∀ s ∈ hi, b ≤ s.min) : hi.filter (isIn a max) = hi.filter (isIn b max) := by
  apply List.filter_congr
  intro s hs
  have := ha s hs; have := hb s hs
  simp only [isIn]
  congr 1
  simp; omega

/-- A command that does not change the map. -/
theorem range_keep {e : Ranges} {max : Nat} {act : Ranges → Nat → Res Ranges}
    (hact : ∀ m, act e m = .ok e) : ∀ (fuel : Nat) (lo hi : List (Slice Nat)) (min : Nat),
    Inv e.map (lo ++ hi) →
    (∀ s ∈ lo, s.max < min) → (∀ s ∈ hi, min ≤ s.min) → min < 9223372036854775808 →
    Near (lo ++ hi) min →
    (∀ s ∈ hi, s.max ≤ max → s.max + 1 < 9223372036854775808 ∧ Near (lo ++ hi) (s.max + 1)) →
    hi.length < fuel →
    range act fuel e min max = .ok (some (e, (hi.filter (isIn min max)).map (·.min))) := by
  intro fuel
  induction fuel with
  | zero => intro _ _ _ _ _ _ _ _ _ h; omega
  | succ n ih =>
    intro lo hi min h hlo hhi hm hn hpos hf
    rcases foreach_spec h (max := max) hlo hhi hm hn with ⟨s, hi', rfl, hmx, hfe⟩ | ⟨hnil, hfe⟩
    · simp only [range, hfe, Res.bind_ok, hact]
      have hparts := h.sorted.parts
      have hassoc : (lo ++ [s]) ++ hi' = lo ++ s :: hi' := by simp
      have hp := hpos s (by simp) hmx
      have hrec := ih (lo ++ [s]) hi' (s.max + 1) (by rw [hassoc]; exact h)
        (by
          intro u hu; simp at hu
          rcases hu with hu | rfl
          · have := hparts.1 u hu; omega
          · omega)
        (by intro u hu; have := hparts.2.1 u hu; omega)
        hp.1 (by rw [hassoc]; exact hp.2)
        (by intro u hu; rw [hassoc]; exact hpos u (by simp [hu]))
        (by simp at hf; omega)
      rw [hrec]
      simp only [Res.bind_ok]
      have hs1 := hhi s (by simp)
      have hin : isIn min max s = true := by simp [isIn, hs1, hmx]
      rw [List.filter_cons, if_pos hin, List.map_cons]
      rw [filter_min_irrel (a := min) (b := s.max + 1)
        (by intro u hu; exact hhi u (by simp [hu]))
        (by intro u hu; have := hparts.2.1 u hu; omega)]
    · simp only [range, hfe, Res.bind_ok, hnil, List.map_nil]

/-- Dropping. -/
theorem range_drop {max min0 : Nat} : ∀ (fuel : Nat) (e : Ranges) (lo hi : List (Slice Nat)) (min : Nat),
    Inv e.map (lo ++ hi) → Fresh e (lo ++ hi) → min0 ≤ min →
    (∀ s ∈ lo, s.max < min) → (∀ s ∈ hi, min ≤ s.min) → min < 9223372036854775808 → min ≤ max + 1 →
    (∀ A B, hi = A ++ B → (∀ a ∈ A, a.max ≤ max) → ∀ id, min0 ≤ id → id ≤ max + 1 → Near (lo ++ B) id) →
    (∀ s ∈ hi, s.max + 1 < 9223372036854775808) →
    hi.length < fuel →
    ∃ e', range Ranges.drop fuel e min max =
        .ok (some (e', (hi.filter (isIn min max)).map (·.min))) ∧
      Inv e'.map (lo ++ hi.filter (fun s => !isIn min max s)) := by
  intro fuel
  induction fuel with
  | zero => intro _ _ _ _ _ _ _ _ _ _ _ _ _ h; omega
  | succ n ih =>
    intro e lo hi min h hfr h0 hlo hhi hm hmm hnear hlim hf
    rcases foreach_spec h (max := max) hlo hhi hm (hnear [] hi rfl (by simp) min h0 hmm) with
      ⟨s, hi', rfl, hmx, hfe⟩ | ⟨hnil, hfe⟩
    · have hparts := h.sorted.parts
      have hs1 := hhi s (by simp)
      have hs2 := h.sorted.wf s (by simp)
      have hlim1 := hlim s (by simp)
      rcases drop_spec h hfr (id := s.min) (by omega)
        (hnear [] (s :: hi') rfl (by simp) s.min (by omega) (by omega)) with
        ⟨lo2, s2, hi2, e', d1, d2, d3, d4, d5⟩ | ⟨d1, _⟩
      · have heq : lo2 ++ hi2 = lo ++ hi' := by
          have hs2m : s2 = s := by
            have : s2 ∈ lo ++ s :: hi' := by rw [d1]; simp
            simp at this
            rcases this with h' | h' | h'
            · have := hparts.1 _ h'; have := d2.2; omega
            · exact h'
            · have := hparts.2.1 _ h'; have := d2.1; omega
          subst hs2m
          have e1 : lo.length = lo2.length := by
            have p2 := (d1 ▸ h.sorted).parts
            have hc : ∀ (a b c d : List (Slice Nat)), a ++ s2 :: b = c ++ s2 :: d →
                (∀ x ∈ a, x.max < s2.min) → (∀ x ∈ c, x.max < s2.min) →
                (∀ x ∈ b, s2.max < x.min) → a.length = c.length := by
              intro a
              induction a with
              | nil =>
                intro b c d he _ hc _
                cases c with
                | nil => rfl
                | cons y ys =>
                  simp at he
                  have := hc y (by simp); rw [← he.1] at this; omega
              | cons x xs ihx =>
                intro b c d he ha hc hb
                cases c with
                | nil =>
                  simp at he
                  have := ha x (by simp); rw [he.1] at this; omega
                | cons y ys =>
                  simp at he
                  simp
                  exact ihx b ys d he.2 (fun z hz => ha z (by simp [hz]))
                    (fun z hz => hc z (by simp [hz])) hb
            exact hc lo hi' lo2 hi2 d1 (fun x hx => (hparts.1 x hx).1) (fun x hx => (p2.1 x hx).1)
              (fun x hx => (hparts.2.1 x hx).1)
          obtain ⟨e2, e3⟩ := List.append_inj d1 e1
          simp at e3
          rw [e2, e3]
        rw [heq] at d4 d5
        obtain ⟨e'', r1, r2⟩ := ih e' lo hi' (s.max + 1) d4 d5 (by omega)
          (by intro u hu; have := hparts.1 u hu; omega)
          (by intro u hu; have := hparts.2.1 u hu; omega)
          hlim1 (by omega)
          (by
            intro A B hAB hA id i1 i2
            exact hnear (s :: A) B (by rw [hAB]; rfl) (by
              intro a ha; simp at ha
              rcases ha with rfl | ha
              · exact hmx
              · exact hA a ha) id i1 i2)
          (fun u hu => hlim u (by simp [hu])) (by simp at hf; omega)
        refine ⟨e'', ?_, ?_⟩
        · simp only [range, hfe, Res.bind_ok, d3, r1]
          have hin : isIn min max s = true := by simp [isIn, hs1, hmx]
          rw [List.filter_cons, if_pos hin, List.map_cons]
          rw [filter_min_irrel (a := min) (b := s.max + 1)
            (by intro u hu; exact hhi u (by simp [hu]))
            (by intro u hu; have := hparts.2.1 u hu; omega)]
        · have hin : isIn min max s = true := by simp [isIn, hs1, hmx]
          have h2 : hi'.filter (fun u => !isIn (s.max + 1) max u) =
              (s :: hi').filter (fun s => !isIn min max s) := by
            rw [List.filter_cons, if_neg (by simp [hin])]
            apply List.filter_congr
            intro u hu
            have := hparts.2.1 u hu
            have := hhi u (by simp [hu])
            simp only [isIn]
            congr 2
            simp; omega
          rw [← h2]; exact r2
      · exact absurd ⟨Nat.le_refl _, hs2.1⟩ (d1 s (by simp))
    · refine ⟨e, by simp only [range, hfe, Res.bind_ok, hnil, List.map_nil], ?_⟩
      have : hi.filter (fun s => !isIn min max s) = hi := by
        apply List.filter_eq_self.2
        intro u hu
        have := (List.filter_eq_nil_iff.1 hnil) u hu
        simpa using this
      rw [this]; exact h

/-- Splitting a sorted listing at a position no partition straddles. -/
theorem split_at {L : List (Slice Nat)} (h : Sorted L) {min : Nat}
    (hs : ∀ s ∈ L, s.min < min → s.max < min) :
    ∃ lo hi, L = lo ++ hi ∧ (∀ s ∈ lo, s.max < min) ∧ (∀ s ∈ hi, min ≤ s.min) := by
  induction L with
  | nil => exact ⟨[], [], rfl, by simp, by simp⟩
  | cons a L ih =>
    obtain ⟨pw, wf⟩ := h
    rw [List.pairwise_cons] at pw
    by_cases ha : a.min < min
    · obtain ⟨lo, hi, h1, h2, h3⟩ := ih ⟨pw.2, fun s hs => wf s (by simp [hs])⟩
        (fun s hs' => hs s (by simp [hs']))
      refine ⟨a :: lo, hi, by rw [h1]; rfl, ?_, h3⟩
      intro s hs'
      simp at hs'
      rcases hs' with rfl | hs'
      · exact hs s (by simp) ha
      · exact h2 s hs'
    · refine ⟨[], a :: L, rfl, by simp, ?_⟩
      intro s hs'
      simp at hs'
      rcases hs' with rfl | hs'
      · omega
      · have := pw.1 s hs'; have := wf a (by simp); omega

end Verif.C42
