import Verif.Model.Ranges
import Verif.Proofs.Mapping
import Verif.Spec.Ranges

/-! Helper lemmas about the partition map operations. -/
namespace Verif.Ranges
open Rb Spec Mapping

/-- The slices from a position on. -/
def tail : Option (Loc (Slice Nat)) → List (Slice Nat)
  | none => []
  | some x => x.v :: x.hi

/-- What the loop of engine_fill_nolock computes. -/
structure Gaps (l : List (Slice Nat)) (min max : Nat) (G : List (Nat × Nat)) : Prop where
  wf : ∀ g ∈ G, min ≤ g.1 ∧ g.1 ≤ g.2 ∧ g.2 ≤ max
  apart : ∀ g ∈ G, ∀ s ∈ l, s.max < g.1 ∨ g.2 < s.min
  ord : G.Pairwise (fun a b => a.2 < b.1)
  cover : ∀ id, min ≤ id → id ≤ max →
    (∃ g ∈ G, g.1 ≤ id ∧ id ≤ g.2) ∨ (∃ s ∈ l, Covers s id)

theorem next_tail {x : Loc (Slice Nat)} {t : Tree (Slice Nat)} (hx : x.tree = t) :
    tail (Rb.next x) = x.hi ∧ ∀ y, Rb.next x = some y → y.tree = t := by
  rcases next_spec hx rfl with ⟨h1, h2⟩ | ⟨y, h1, h2, h3, h4, h5⟩
  · rw [h1]; exact ⟨by simp [tail, h2], by simp⟩
  · rw [h1]; exact ⟨by simp [tail, h5], by rintro z ⟨⟩; exact h2⟩

theorem wrapU64_small {n : Nat} (h : n < 18446744073709551616) : wrapU64 (n : Int) = n := by
  simp only [wrapU64]; omega

theorem gaps_spec {t : Tree (Slice Nat)} : ∀ fuel (slice : Option (Loc (Slice Nat))) (min max : Nat),
    (∀ x, slice = some x → x.tree = t) → Sorted (tail slice) → (tail slice).length < fuel →
    ∃ G, gaps fuel slice min max = .ok G ∧ Gaps (tail slice) min max G := by
  intro fuel
  induction fuel with
  | zero => intro _ _ _ _ _ h; omega
  | succ n ih =>
    intro slice min max ht hs hl
    by_cases hmm : min ≤ max
    · cases slice with
      | none =>
        refine ⟨[(min, max)], by simp [gaps, hmm], ?_, ?_, by simp, ?_⟩
        · simp [hmm]
        · simp [tail]
        · intro id h1 h2; exact .inl ⟨(min, max), by simp, h1, h2⟩
      | some x =>
        obtain ⟨e1, e2⟩ := next_tail (ht x rfl)
        simp only [tail] at hs hl ⊢
        have hp := Sorted.parts (lo := []) (by simpa using hs)
        have hs' : Sorted (tail (Rb.next x)) := by
          rw [e1]
          exact ⟨(List.pairwise_cons.1 hs.pw).2, fun s h => hs.wf s (by simp [h])⟩
        have hwrap : wrapU64 ((x.v.max + 1 : Nat) : Int) = x.v.max + 1 :=
          wrapU64_small (by have := hp.2.2.2; omega)
        by_cases hlt : min < x.v.min
        · obtain ⟨G, g1, g2⟩ := ih (Rb.next x) (x.v.max + 1) max e2 hs' (by rw [e1]; simp at hl; omega)
          rw [e1] at g2
          refine ⟨(min, if max < x.v.min then max else x.v.min - 1) :: G, ?_, ?_, ?_, ?_, ?_⟩
          · simp only [gaps, hmm, if_true, hlt, hwrap, g1, Res.bind_ok]
          · intro g hg
            simp at hg
            rcases hg with rfl | hg
            · dsimp only; split <;> omega
            · have := g2.wf g hg; omega
          · intro g hg s hs'
            simp at hg hs'
            rcases hg with rfl | hg
            · right
              rcases hs' with rfl | hs'
              · dsimp only; split <;> omega
              · have := hp.2.1 s hs'; dsimp only; split <;> omega
            · rcases hs' with rfl | hs'
              · have := g2.wf g hg; omega
              · exact g2.apart g hg s hs'
          · refine List.pairwise_cons.2 ⟨?_, g2.ord⟩
            intro g hg
            have := g2.wf g hg
            dsimp only; split <;> omega
          · intro id h1 h2
            by_cases c1 : id < x.v.min
            · left
              refine ⟨_, List.mem_cons_self .., h1, ?_⟩
              dsimp only; split <;> omega
            · by_cases c2 : id ≤ x.v.max
              · exact .inr ⟨x.v, by simp, by simp [Covers]; omega⟩
              · rcases g2.cover id (by omega) h2 with ⟨g, h3, h4⟩ | ⟨s, h3, h4⟩
                · exact .inl ⟨g, by simp [h3], h4⟩
                · exact .inr ⟨s, by simp [h3], h4⟩
        · by_cases hin : min ≤ x.v.max
          · have hsl : sliceIn x.v min = true := by simp [sliceIn]; omega
            obtain ⟨G, g1, g2⟩ := ih (Rb.next x) (x.v.max + 1) max e2 hs' (by rw [e1]; simp at hl; omega)
            rw [e1] at g2
            refine ⟨G, ?_, ?_, ?_, g2.ord, ?_⟩
            · simp only [gaps, hmm, if_true, hlt, if_false, hsl, hwrap, g1]
            · intro g hg; have := g2.wf g hg; omega
            · intro g hg s hs'
              simp at hs'
              rcases hs' with rfl | hs'
              · have := g2.wf g hg; omega
              · exact g2.apart g hg s hs'
            · intro id h1 h2
              by_cases c2 : id ≤ x.v.max
              · exact .inr ⟨x.v, by simp, by simp [Covers]; omega⟩
              · rcases g2.cover id (by omega) h2 with ⟨g, h3, h4⟩ | ⟨s, h3, h4⟩
                · exact .inl ⟨g, h3, h4⟩
                · exact .inr ⟨s, by simp [h3], h4⟩
          · have hsl : sliceIn x.v min = false := by simp [sliceIn]; omega
            obtain ⟨G, g1, g2⟩ := ih (Rb.next x) min max e2 hs' (by rw [e1]; simp at hl; omega)
            rw [e1] at g2
            refine ⟨G, ?_, g2.wf, ?_, g2.ord, ?_⟩
            · simp [gaps, hmm, hlt, hsl, g1]
            · intro g hg s hs'
              simp at hs'
              rcases hs' with rfl | hs'
              · have := g2.wf g hg; omega
              · exact g2.apart g hg s hs'
            · intro id h1 h2
              rcases g2.cover id h1 h2 with ⟨g, h3, h4⟩ | ⟨s, h3, h4⟩
              · exact .inl ⟨g, h3, h4⟩
              · exact .inr ⟨s, by simp [h3], h4⟩
    · refine ⟨[], by simp [gaps, hmm], by simp, by simp, by simp, ?_⟩
      intro id h1 h2; omega

theorem nearAll_add {L L' : List (Slice Nat)} {min max : Nat} {s : Slice Nat}
    (h : NearAll L min max) (hw : max - min < 2147483648) (h1 : min ≤ s.min) (h2 : s.min ≤ max)
    (hL : ∀ x, x ∈ L' ↔ x = s ∨ x ∈ L) : NearAll L' min max := by
  intro id i1 i2 u hu
  rcases (hL u).1 hu with rfl | hu'
  · exact ⟨fun _ _ => by omega, fun _ _ => by omega⟩
  · have := h id i1 i2 u hu'
    exact ⟨fun a b => this.1 a (fun v hv => b v ((hL v).2 (.inr hv))),
      fun a b => this.2 a (fun v hv => b v ((hL v).2 (.inr hv)))⟩

theorem createAll_spec {min max : Nat} (hmax : max < 9223372036854775808)
    (hw : max - min < 2147483648) : ∀ (G : List (Nat × Nat)) (e : Ranges) (L : List (Slice Nat)),
    Inv e.map L → (∀ g ∈ G, min ≤ g.1 ∧ g.1 ≤ g.2 ∧ g.2 ≤ max) →
    (∀ g ∈ G, ∀ s ∈ L, s.max < g.1 ∨ g.2 < s.min) → G.Pairwise (fun a b => a.2 < b.1) →
    NearAll L min max →
    ∃ e' L', e.createAll G = .ok e' ∧ Inv e'.map L' ∧ NearAll L' min max ∧
      (∀ s ∈ L, s ∈ L') ∧
      (∀ s ∈ L', s ∈ L ∨ ((s.min, s.max) ∈ G ∧ e.next ≤ s.val)) ∧
      (∀ g ∈ G, ∃ s ∈ L', (s.min, s.max) = g) ∧ e.next ≤ e'.next ∧
      (∀ s ∈ L', s ∈ L ∨ s.val < e'.next) := by
  intro G
  induction G with
  | nil =>
    intro e L h _ _ _ hn
    exact ⟨e, L, rfl, h, hn, fun _ h => h, fun _ h => .inl h, by simp, by omega, fun _ h => .inl h⟩
  | cons g G ih =>
    intro e L h hwf hap hord hn
    have hg := hwf g (by simp)
    obtain ⟨m', lo, hi, a1, a2, a3, a4, a5⟩ := add_spec h ⟨g.1, g.2, e.next⟩ hg.2.1 (by dsimp only; omega)
      (by
        intro u hu
        simp only [Apart]
        have := hap g (by simp) u hu
        omega) (hn g.1 hg.1 (by omega))
    have hmem : ∀ x, x ∈ lo ++ (⟨g.1, g.2, e.next⟩ : Slice Nat) :: hi ↔ x = ⟨g.1, g.2, e.next⟩ ∨ x ∈ L := by
      intro x; rw [a2]; simp; grind
    obtain ⟨e', L', b1, b2, b3, b4, b5, b6, b7, b8⟩ := ih ⟨m', e.next + 1⟩ _ a3
      (fun x hx => hwf x (by simp [hx]))
      (by
        intro x hx s hs
        rcases (hmem s).1 hs with rfl | hs
        · left; exact (List.pairwise_cons.1 hord).1 x hx
        · exact hap x (by simp [hx]) s hs)
      (List.pairwise_cons.1 hord).2
      (nearAll_add hn hw hg.1 (by dsimp only; omega) hmem)
    refine ⟨e', L', ?_, b2, b3, ?_, ?_, ?_, ?_, ?_⟩
    · simp only [createAll, create, a1, Res.bind_ok]; exact b1
    · intro s hs; exact b4 s ((hmem s).2 (.inr hs))
    · intro s hs
      rcases b5 s hs with h' | ⟨h1, h2⟩
      · rcases (hmem s).1 h' with rfl | h'
        · exact .inr ⟨by simp, by simp⟩
        · exact .inl h'
      · refine .inr ⟨by simp [h1], ?_⟩
        dsimp only at h2; omega
    · intro x hx
      simp at hx
      rcases hx with rfl | hx
      · exact ⟨⟨x.1, x.2, e.next⟩, b4 _ ((hmem _).2 (.inl rfl)), rfl⟩
      · exact b6 x hx
    · dsimp only at b7; omega
    · intro s hs
      rcases b8 s hs with h' | h'
      · rcases (hmem s).1 h' with rfl | h'
        · right; dsimp only at b7 ⊢; omega
        · exact .inl h'
      · exact .inr h'

/-- Every creation number is below the next one. -/
def Fresh (e : Ranges) (L : List (Slice Nat)) : Prop := ∀ s ∈ L, s.val < e.next

theorem fill_spec {e : Ranges} {L : List (Slice Nat)} (h : Inv e.map L) (hf : Fresh e L) {min max : Nat}
    (hmm : min ≤ max) (hmax : max < 9223372036854775808)
    (hn : L = [] ∨ (max - min < 2147483648 ∧ NearAll L min max)) :
    ∃ e' L', e.fill min max = .ok e' ∧ Inv e'.map L' ∧ Fresh e' L' ∧
      (max - min < 2147483648 → NearAll L' min max) ∧
      (∀ s ∈ L, s ∈ L') ∧
      (∀ s ∈ L', s ∈ L ∨ (min ≤ s.min ∧ s.max ≤ max ∧ e.next ≤ s.val ∧ ∀ u ∈ L, Apart s u)) ∧
      (∀ id, min ≤ id → id ≤ max → ∃ s ∈ L', Covers s id) := by
  by_cases hL : L = []
  · subst hL
    obtain ⟨m', lo, hi, a1, a2, a3, a4, a5⟩ := add_spec h ⟨min, max, e.next⟩ hmm hmax (by simp)
      (by intro s hs; simp at hs)
    obtain ⟨rfl, rfl⟩ : lo = [] ∧ hi = [] := by simpa using a2.symm
    refine ⟨⟨m', e.next + 1⟩, [⟨min, max, e.next⟩], ?_, a3, ?_, ?_, by simp, ?_, ?_⟩
    · simp only [fill, create]
      rw [if_neg (by omega), if_pos (by rw [h.count]; rfl), a1]; rfl
    · simp [Fresh]
    · intro hw
      refine nearAll_add (L := []) (s := ⟨min, max, e.next⟩) ?_ hw (Nat.le_refl _) hmm (by simp)
      intro id _ _ s hs; simp at hs
    · intro s hs; simp at hs; subst hs
      right; exact ⟨Nat.le_refl _, Nat.le_refl _, Nat.le_refl _, by simp⟩
    · intro id h1 h2; exact ⟨⟨min, max, e.next⟩, by simp, h1, h2⟩
  · rcases hn with hn | ⟨hw, hn⟩
    · exact absurd hn hL
    · obtain ⟨y, hs, hy, hLy, h1, h2⟩ := seek_spec h min (by omega) (hn min (by omega) hmm) hL
      have hc : e.map.count ≠ 0 := by rw [h.count]; simpa using hL
      have hsort : Sorted (tail (some y)) := by
        have := h.sorted
        rw [hLy] at this
        exact ⟨(List.pairwise_append.1 this.pw).2.1, fun s hs => this.wf s (by simp [tail] at hs ⊢; grind)⟩
      obtain ⟨G, g1, g2⟩ := gaps_spec (t := e.map.tree) (e.map.count + 1) (some y) min max
        (by rintro x ⟨⟩; exact hy) hsort (by rw [h.count, hLy]; simp [tail]; omega)
      have hpre : ∀ s ∈ y.lo, s.max < min := by
        intro s hs
        rcases h2 with h2 | h2
        · have := ((hLy ▸ h.sorted).parts).1 s hs; omega
        · rw [h2] at hs; simp at hs
      obtain ⟨e', L', b1, b2, b3, b4, b5, b6, b7, b8⟩ := createAll_spec hmax hw G e L h g2.wf
        (by
          intro g hg s hs
          rw [hLy] at hs
          simp at hs
          rcases hs with hs | hs
          · have := hpre s hs; have := g2.wf g hg; omega
          · exact g2.apart g hg s (by simpa [tail] using hs))
        g2.ord hn
      refine ⟨e', L', ?_, b2, ?_, fun _ => b3, b4, ?_, ?_⟩
      · simp only [fill]
        rw [if_neg (by omega), if_neg hc, hs]
        simp only [Res.bind_ok, g1, b1]
      · intro s hs
        rcases b8 s hs with h' | h'
        · have := hf s h'; omega
        · exact h'
      · intro s hs
        rcases b5 s hs with h' | ⟨h3, h4⟩
        · exact .inl h'
        · have := g2.wf _ h3
          right
          refine ⟨this.1, this.2.2, h4, ?_⟩
          intro u hu
          simp only [Apart]
          rw [hLy] at hu
          simp at hu
          rcases hu with hu | hu
          · have := hpre u hu; omega
          · have := g2.apart _ h3 u (by simpa [tail] using hu)
            simp only at this; omega
      · intro id i1 i2
        rcases g2.cover id i1 i2 with ⟨g, hg, hc1, hc2⟩ | ⟨s, hs, hc⟩
        · obtain ⟨s, hs, he⟩ := b6 g hg
          refine ⟨s, hs, ?_⟩
          rw [← he] at hc1 hc2
          exact ⟨hc1, hc2⟩
        · exact ⟨s, b4 s (by rw [hLy]; simp [tail] at hs ⊢; grind), hc⟩

theorem last_spec {β : Type} {m : Mapping β} {L : List (Slice β)} (h : Inv m L) :
    (m.last = none ∧ L = []) ∨ ∃ x, m.last = some x ∧ x.tree = m.tree ∧ x.v ∈ L := by
  by_cases hL : L = []
  · left; simp [Mapping.last, h.count, hL]
  · right
    have hc : m.count ≠ 0 := by rw [h.count]; simpa using hL
    simp only [Mapping.last, hc, if_false]
    cases hm : Rb.max m.tree with
    | none =>
      exfalso
      have := max_none hm
      apply hL; rw [← h.list, this]; rfl
    | some x =>
      obtain ⟨h1, h2⟩ := max_some hm
      refine ⟨x, rfl, h1, ?_⟩
      rw [← h.list, ← h1, x.inorder_eq]; simp

theorem lookup_spec {e : Ranges} {L : List (Slice Nat)} (h : Inv e.map L) {id : Nat}
    (hid : id < 9223372036854775808) (hn : Near L id) :
    ∃ r, e.lookup id = .ok r ∧ IsMatch L id r := by
  obtain ⟨r, m1, m2, m3⟩ := match_spec h id hid hn
  simp only [lookup]
  rcases last_spec h with ⟨h1, h2⟩ | ⟨x, h1, h2, h3⟩
  · rw [h1]
    simp only [m1, Res.bind_ok]
    exact ⟨_, rfl, m2⟩
  · rw [h1]
    dsimp only
    by_cases hc : sliceIn x.v id = true
    · rw [if_pos hc]
      exact ⟨_, rfl, h3, by simpa [sliceIn, Covers] using hc⟩
    · rw [if_neg hc]
      simp only [m1, Res.bind_ok]
      exact ⟨_, rfl, m2⟩

/-- engine_lock with creation. -/
theorem lock_spec {interval : Nat} {e : Ranges} {L : List (Slice Nat)} (h : Inv e.map L)
    (hf : Fresh e L) {id : Nat} (hi0 : 0 < interval) (hi : interval < 2147483648)
    (hid : id + interval < 9223372036854775808)
    (hn : NearAll L (intervalOf interval id) (intervalOf interval id + interval - 1)) :
    ∃ e' L' s, e.lock interval id = .ok (e', s) ∧ Inv e'.map L' ∧ Fresh e' L' ∧
      s ∈ L' ∧ Covers s id ∧ (∀ s ∈ L, s ∈ L') ∧
      (∀ s ∈ L', s ∈ L ∨ (intervalOf interval id ≤ s.min ∧
        s.max ≤ intervalOf interval id + interval - 1 ∧ e.next ≤ s.val ∧ ∀ u ∈ L, Apart s u)) ∧
      ((∃ s ∈ L, Covers s id) → e' = e ∧ L' = L) := by
  have hmod := Nat.mod_lt id hi0
  have hle := Nat.mod_le id interval
  have hlo : intervalOf interval id ≤ id := by simp [intervalOf]
  have hhi : id ≤ intervalOf interval id + interval - 1 := by simp only [intervalOf]; omega
  obtain ⟨r, l1, l2⟩ := lookup_spec h (id := id) (by omega) (hn id hlo hhi)
  cases r with
  | some s =>
    refine ⟨e, L, s, by simp [lock, l1], h, hf, l2.1, l2.2, fun _ h => h, fun _ h => .inl h,
      fun _ => ⟨rfl, rfl⟩⟩
  | none =>
    have hmaxeq : wrapU64 (wrapU64 ((intervalOf interval id : Int) + interval) - 1) =
        intervalOf interval id + interval - 1 := by
      simp only [wrapU64]; omega
    obtain ⟨e', L', f1, f2, f3, f4, f5, f6, f7⟩ := fill_spec h hf (min := intervalOf interval id)
      (max := intervalOf interval id + interval - 1) (by omega) (by omega)
      (.inr ⟨by omega, hn⟩)
    obtain ⟨r, m1, m2, m3⟩ := match_spec f2 id (by omega) (f4 (by omega) id hlo hhi)
    obtain ⟨s0, hs0, hc0⟩ := f7 id hlo hhi
    cases r with
    | none => exact absurd hc0 (m2 s0 hs0)
    | some x =>
      refine ⟨e', L', x.v, ?_, f2, f3, m2.1, m2.2, f5, f6, ?_⟩
      · simp [lock, l1, hmaxeq, f1, m1]
      · rintro ⟨s, hs, hc⟩; exact absurd hc (l2 s hs)

/-- engine_drop of a covered id. -/
theorem drop_spec {e : Ranges} {L : List (Slice Nat)} (h : Inv e.map L) (hf : Fresh e L) {id : Nat}
    (hid : id < 9223372036854775808) (hn : Near L id) :
    (∃ lo s hi e', L = lo ++ s :: hi ∧ Covers s id ∧ e.drop id = .ok e' ∧
      Inv e'.map (lo ++ hi) ∧ Fresh e' (lo ++ hi)) ∨
    ((∀ s ∈ L, ¬ Covers s id) ∧ e.drop id = .err "drop: partition not found") := by
  obtain ⟨r, l1, l2⟩ := lookup_spec h hid hn
  cases r with
  | none => right; exact ⟨l2, by simp [drop, l1]⟩
  | some s =>
    left
    obtain ⟨r, m1, m2, m3⟩ := match_spec h id hid hn
    cases r with
    | none => exact absurd l2.2 (m2 s l2.1)
    | some x =>
      obtain ⟨m', r1, r2, r3⟩ := removeAt_spec h (m3 x rfl)
      refine ⟨x.lo, x.v, x.hi, ⟨m', e.next⟩, r2, m2.2, by simp [drop, l1, m1, r1], r3, ?_⟩
      intro u hu
      exact hf u (by rw [r2]; simp at hu ⊢; grind)

theorem sorted_disjoint {L : List (Slice Nat)} (h : Sorted L) : Disjoint L where
  apart := h.pw.imp (fun hab => .inl hab)
  wf := fun s hs => by have := h.wf s hs; omega

theorem filled_of {L L' : List (Slice Nat)} {min max : Nat} (h : Sorted L')
    (h1 : ∀ s ∈ L, s ∈ L') (h2 : ∀ s ∈ L', s ∈ L ∨ (min ≤ s.min ∧ s.max ≤ max))
    (h3 : ∀ id, min ≤ id → id ≤ max → ∃ s ∈ L', Covers s id) : Filled L L' min max :=
  ⟨h1, h2, h3, sorted_disjoint h⟩

/-- One tame command. -/
theorem step_spec {e : Ranges} {L : List (Slice Nat)} (h : Inv e.map L) (hf : Fresh e L)
    (o : RangeOp) (ht : o.Tame L) :
    (∃ e' L', o.step e = .ok e' ∧ Inv e'.map L' ∧ Fresh e' L' ∧
      ∀ s ∈ L, s ∈ L' ∨ (∃ id, o = .drop id ∧ Covers s id)) ∨ (∃ s, o.step e = .err s) := by
  cases o with
  | create min max =>
    rcases ht with ht | ⟨h1, h2⟩
    · right; exact ⟨_, by simp only [RangeOp.step, fill]; rw [if_pos (by omega)]⟩
    · by_cases hmm : min ≤ max
      · left
        obtain ⟨e', L', f1, f2, f3, f4, f5, f6, f7⟩ := fill_spec h hf hmm h1 h2
        exact ⟨e', L', f1, f2, f3, fun s hs => .inl (f5 s hs)⟩
      · right; exact ⟨_, by simp only [RangeOp.step, fill]; rw [if_pos (by omega)]⟩
  | write interval id =>
    obtain ⟨t1, t2, t3, t4⟩ := ht
    left
    obtain ⟨e', L', s, f1, f2, f3, f4, f5, f6, f7, f8⟩ := lock_spec h hf t1 t2 t3 t4
    exact ⟨e', L', by simp [RangeOp.step, f1], f2, f3, fun s hs => .inl (f6 s hs)⟩
  | drop id =>
    obtain ⟨t1, t2⟩ := ht
    rcases drop_spec h hf t1 t2 with ⟨lo, s, hi, e', d1, d2, d3, d4, d5⟩ | ⟨d1, d2⟩
    · left
      refine ⟨e', _, d3, d4, d5, ?_⟩
      intro u hu
      rw [d1] at hu
      simp at hu
      rcases hu with hu | rfl | hu
      · left; simp [hu]
      · right; exact ⟨id, rfl, d2⟩
      · left; simp [hu]
    · right; exact ⟨_, d2⟩

theorem inv_listing {e : Ranges} {L : List (Slice Nat)} (h : Inv e.map L) : listing e = L := h.list

theorem run_spec : ∀ (ops : List RangeOp) (e : Ranges) (L : List (Slice Nat)),
    Inv e.map L → Fresh e L → TameRun e ops →
    ∃ e' L', RangeOp.run e ops = .ok e' ∧ Inv e'.map L' ∧ Fresh e' L' := by
  intro ops
  induction ops with
  | nil => intro e L h hf _; exact ⟨e, L, rfl, h, hf⟩
  | cons o os ih =>
    intro e L h hf ht
    obtain ⟨t1, t2⟩ := ht
    rw [inv_listing h] at t1
    rcases step_spec h hf o t1 with ⟨e', L', s1, s2, s3, _⟩ | ⟨s, s1⟩
    · obtain ⟨e'', L'', r1, r2, r3⟩ := ih e' L' s2 s3 (t2 e' (.inl s1))
      exact ⟨e'', L'', by simp [RangeOp.run, s1, r1], r2, r3⟩
    · obtain ⟨e'', L'', r1, r2, r3⟩ := ih e L h hf (t2 e (.inr ⟨⟨s, s1⟩, rfl⟩))
      exact ⟨e'', L'', by simp [RangeOp.run, s1, r1], r2, r3⟩

theorem init_inv : Inv Ranges.init.map [] ∧ Fresh Ranges.init [] :=
  ⟨Mapping.inv_init, by simp [Fresh]⟩

/-- States reached by tame commands. -/
theorem reach_inv {ops : List RangeOp} {e : Ranges} (ht : TameRun .init ops)
    (hr : RangeOp.run .init ops = .ok e) : ∃ L, Inv e.map L ∧ Fresh e L ∧ listing e = L := by
  obtain ⟨e', L, r1, r2, r3⟩ := run_spec ops .init [] init_inv.1 init_inv.2 ht
  rw [hr] at r1
  cases r1
  exact ⟨L, r2, r3, inv_listing r2⟩

/-- Inside a window of 2^31 ids everything is near. -/
theorem near_window {S : List (Slice Nat)} {base id : Nat} (h1 : base ≤ id) (h2 : id < base + 2147483648)
    (hS : ∀ s ∈ S, base ≤ s.min ∧ s.min < base + 2147483648) : Near S id := by
  intro s hs
  have := hS s hs
  exact ⟨fun _ _ => by omega, fun _ _ => by omega⟩

theorem window_tame {base : Nat} (hb : base + 4294967296 < 9223372036854775808)
    {S : List (Slice Nat)} (hS : ∀ s ∈ S, base ≤ s.min ∧ s.min < base + 2147483648)
    {o : RangeOp} (ho : o.InWindow base) : o.Tame S := by
  cases o with
  | create min max =>
    rcases ho with ho | ho
    · exact .inl ho
    · by_cases hmm : max < min
      · exact .inl hmm
      · refine .inr ⟨by omega, .inr ⟨by omega, fun id _ _ => near_window (by omega) (by omega) hS⟩⟩
  | write interval id =>
    obtain ⟨o1, o4, o2, o3⟩ := ho
    have hmod := Nat.mod_lt id o1
    have hle := Nat.mod_le id interval
    exact ⟨o1, by omega, by omega, fun id _ _ => near_window (by omega) (by omega) hS⟩
  | drop id => exact ⟨by have := ho.2; omega, near_window ho.1 ho.2 hS⟩

theorem window_run {base : Nat} (hb : base + 4294967296 < 9223372036854775808) :
    ∀ (ops : List RangeOp) (e : Ranges) (L : List (Slice Nat)), Inv e.map L → Fresh e L →
    (∀ s ∈ L, base ≤ s.min ∧ s.min < base + 2147483648) → (∀ o ∈ ops, o.InWindow base) →
    TameRun e ops := by
  intro ops
  induction ops with
  | nil => intros; trivial
  | cons o os ih =>
    intro e L h hf hL ho
    have hw := ho o (by simp)
    have ht := window_tame hb hL hw
    refine ⟨by rw [inv_listing h]; exact ht, ?_⟩
    rintro e' (he | ⟨⟨s, he⟩, rfl⟩)
    · cases o with
      | create min max =>
        rcases ht with ht | ⟨h1, h2⟩
        · simp only [RangeOp.step, fill] at he; rw [if_pos (by omega)] at he; simp at he
        · by_cases hmm : min ≤ max
          · obtain ⟨e2, L', f1, f2, f3, f4, f5, f6, f7⟩ := fill_spec h hf hmm h1 h2
            simp only [RangeOp.step] at he
            rw [f1] at he; cases he
            refine ih _ L' f2 f3 ?_ (fun x hx => ho x (by simp [hx]))
            intro s hs
            rcases f6 s hs with h' | ⟨a, b, _⟩
            · exact hL s h'
            · have := f2.sorted.wf s hs
              rcases hw with hw | hw <;> omega
          · simp only [RangeOp.step, fill] at he; rw [if_pos (by omega)] at he; simp at he
      | write interval id =>
        obtain ⟨t1, t2, t3, t4⟩ := ht
        obtain ⟨e2, L', s, f1, f2, f3, f4, f5, f6, f7, f8⟩ := lock_spec h hf t1 t2 t3 t4
        simp only [RangeOp.step, f1, Res.bind_ok] at he
        cases he
        refine ih _ L' f2 f3 ?_ (fun x hx => ho x (by simp [hx]))
        intro s hs
        rcases f7 s hs with h' | ⟨a, b, _⟩
        · exact hL s h'
        · have := f2.sorted.wf s hs
          obtain ⟨o1, o4, o2, o3⟩ := hw
          simp only [intervalOf] at a b
          omega
      | drop id =>
        obtain ⟨t1, t2⟩ := ht
        rcases drop_spec h hf t1 t2 with ⟨lo, s, hi, e2, d1, d2, d3, d4, d5⟩ | ⟨d1, d2⟩
        · simp only [RangeOp.step] at he
          rw [d3] at he; cases he
          refine ih _ _ d4 d5 ?_ (fun x hx => ho x (by simp [hx]))
          intro u hu
          exact hL u (by rw [d1]; simp at hu ⊢; grind)
        · simp only [RangeOp.step] at he
          rw [d2] at he; cases he
    · exact ih e' L h hf hL (fun x hx => ho x (by simp [hx]))

end Verif.Ranges
