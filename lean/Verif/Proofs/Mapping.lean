import Verif.Proofs.RbBalance
import Verif.Proofs.Key
import Verif.Spec.Layout

/-! Helper lemmas about the partition index. -/
namespace Verif.Mapping
open Rb Spec
variable {β : Type}

/-- Ascending disjoint ranges below 2^63. -/
structure Sorted (L : List (Slice β)) : Prop where
  pw : L.Pairwise (fun a b => a.max < b.min)
  wf : ∀ s ∈ L, s.min ≤ s.max ∧ s.max < 9223372036854775808

/-- The mapping represents the ascending list `L`. -/
structure Inv (m : Mapping β) (L : List (Slice β)) : Prop where
  valid : Valid m.tree
  list : inorder m.tree = L
  sorted : Sorted L
  count : m.count = L.length

/-- The mapping holds the ascending list `L` (nothing said of the balance). -/
structure Lists (m : Mapping β) (L : List (Slice β)) : Prop where
  list : inorder m.tree = L
  sorted : Sorted L
  count : m.count = L.length

theorem Inv.lists {m : Mapping β} {L : List (Slice β)} (h : Inv m L) : Lists m L := ⟨h.list, h.sorted, h.count⟩

theorem inv_init : Inv (init : Mapping β) [] :=
  ⟨⟨0, .nil⟩, rfl, ⟨by simp, by simp⟩, rfl⟩

theorem Sorted.signMono {L : List (Slice β)} (h : Sorted L) (id : Nat) :
    SignMono (fun s => (s.min : Int) - id) L := by
  have : L.Pairwise (fun a b => a.min < b.min) := by
    rw [List.pairwise_iff_forall_sublist] at *
    have hw := h.wf
    have hp := h.pw
    rw [List.pairwise_iff_forall_sublist] at hp
    intro a b hab
    have := hp hab
    have := (hw a (hab.subset (by simp))).1
    omega
  refine this.imp ?_
  intro a b hab
  dsimp only
  refine ⟨?_, ?_, ?_, ?_⟩ <;> intro h <;> omega

theorem Sorted.parts {lo hi : List (Slice β)} {v : Slice β} (h : Sorted (lo ++ v :: hi)) :
    (∀ s ∈ lo, s.max < v.min ∧ s.min ≤ s.max) ∧ (∀ s ∈ hi, v.max < s.min ∧ s.min ≤ s.max) ∧
      v.min ≤ v.max ∧ v.max < 9223372036854775808 := by
  obtain ⟨pw, wf⟩ := h
  rw [List.pairwise_append, List.pairwise_cons] at pw
  obtain ⟨_, ⟨p1, _⟩, p2⟩ := pw
  exact ⟨fun s hs => ⟨p2 s hs v (by simp), (wf s (by simp [hs])).1⟩,
    fun s hs => ⟨p1 s hs, (wf s (by simp [hs])).1⟩, wf v (by simp)⟩

/-- The search, with the narrowing to `int` shown harmless. -/
theorem find_lists {m : Mapping β} {L : List (Slice β)} (h : Lists m L) (id : Nat)
    (hid : id < 9223372036854775808) (hn : Near L id) :
    (L = [] ∧ m.find id = .ok none) ∨
    (∃ y : Loc (Slice β), m.find id = .ok (some ((y.v.min : Int) - id, y)) ∧ y.tree = m.tree ∧
      L = y.lo ++ y.v :: y.hi ∧
      (y.v.min ≤ id → (∀ a ∈ y.lo, a.min < id) ∧ (∀ a ∈ y.hi, a.min > id)) ∧
      (y.v.min > id → (∀ a ∈ y.lo, a.min < id) ∧ (∀ a ∈ y.hi, a.min > id)) ∧
      (y.v.min < id → y.r = .nil) ∧ (y.v.min > id → y.l = .nil)) := by
  have hm := h.sorted.signMono id
  rw [← h.list] at hm
  have hcmp : ∀ a ∈ inorder m.tree, (fun s : Slice β => compareU64 s.min id) a
      = .ok ((fun s : Slice β => (s.min : Int) - id) a) := by
    intro a ha
    rw [h.list] at ha
    have := h.sorted.wf a ha
    exact compareU64_ok (by omega) hid
  rcases get_spec hcmp hm with ⟨ht, hg⟩ | ⟨y, hg, hy, hin, hlo, hhi, hr, hl⟩
  · left
    have := h.list
    rw [ht] at this
    exact ⟨this.symm, by simp [find, hg]⟩
  · right
    have hL : L = y.lo ++ y.v :: y.hi := by rw [← h.list, hin]
    have k1 : y.v.min ≤ id → (∀ a ∈ y.lo, a.min < id) ∧ (∀ a ∈ y.hi, a.min > id) := by
      intro hle
      refine ⟨fun a ha => by have := hlo (by omega) a ha; omega, fun a ha => ?_⟩
      by_cases h0 : y.v.min = id
      · have := hhi (by omega) a ha; omega
      · have := (hr (by omega)).2 a ha; omega
    have k2 : y.v.min > id → (∀ a ∈ y.lo, a.min < id) ∧ (∀ a ∈ y.hi, a.min > id) := by
      intro hgt
      refine ⟨fun a ha => ?_, fun a ha => by have := hhi (by omega) a ha; omega⟩
      have := (hl (by omega)).2 a ha; omega
    have hw : wrapS32 ((y.v.min : Int) - id) = (y.v.min : Int) - id := by
      have hy := hn y.v (by rw [hL]; simp)
      by_cases hle : y.v.min ≤ id
      · have := hy.1 hle (by
          intro u hu hule
          rw [hL] at hu
          have pr := (hL ▸ h.sorted).parts
          simp at hu
          rcases hu with hu | rfl | hu
          · have := pr.1 u hu; omega
          · omega
          · have := (k1 hle).2 u hu; omega)
        exact wrapS32_id (by omega) (by omega)
      · have := hy.2 (by omega) (by
          intro u hu hule
          rw [hL] at hu
          have pr := (hL ▸ h.sorted).parts
          simp at hu
          rcases hu with hu | rfl | hu
          · have := (k2 (by omega)).1 u hu; omega
          · omega
          · have := pr.2.1 u hu; omega)
        exact wrapS32_id (by omega) (by omega)
    refine ⟨y, by simp [find, hg, hw], hy, hL, k1, k2, fun hlt => (hr (by omega)).1,
      fun hgt => (hl (by omega)).1⟩

theorem find_spec {m : Mapping β} {L : List (Slice β)} (h : Inv m L) (id : Nat)
    (hid : id < 9223372036854775808) (hn : Near L id) :
    (L = [] ∧ m.find id = .ok none) ∨
    (∃ y : Loc (Slice β), m.find id = .ok (some ((y.v.min : Int) - id, y)) ∧ y.tree = m.tree ∧
      L = y.lo ++ y.v :: y.hi ∧
      (y.v.min ≤ id → (∀ a ∈ y.lo, a.min < id) ∧ (∀ a ∈ y.hi, a.min > id)) ∧
      (y.v.min > id → (∀ a ∈ y.lo, a.min < id) ∧ (∀ a ∈ y.hi, a.min > id)) ∧
      (y.v.min < id → y.r = .nil) ∧ (y.v.min > id → y.l = .nil)) :=
  find_lists h.lists id hid hn

/-- Adding a range apart from the others. -/
theorem add_spec {m : Mapping β} {L : List (Slice β)} (h : Inv m L) (s : Slice β)
    (hs : s.min ≤ s.max) (hmax : s.max < 9223372036854775808)
    (hap : ∀ u ∈ L, Apart s u) (hn : Near L s.min) :
    ∃ m' lo hi, m.add s = .ok m' ∧ L = lo ++ hi ∧ Inv m' (lo ++ s :: hi) ∧
      (∀ u ∈ lo, u.max < s.min) ∧ (∀ u ∈ hi, s.max < u.min) := by
  have hwf := h.sorted.wf
  rcases find_spec h s.min (by omega) hn with ⟨hL, hf⟩ | ⟨y, hf, hy, hL, k1, k2, hr, hl⟩
  · subst hL
    refine ⟨⟨.node .black .nil s .nil, m.count + 1⟩, [], [], by simp only [add, hf, Res.bind_ok]; rfl,
      rfl, ⟨⟨1, .black .nil .nil⟩, rfl, ⟨by simp, by simp [hs, hmax]⟩, ?_⟩, by simp, by simp⟩
    have := h.count
    simp at this; simp [this]
  · have hmono := h.sorted.signMono s.min
    rw [← h.list] at hmono
    have hne : y.v.min ≠ s.min := by
      intro he
      have := hap y.v (by rw [hL]; simp)
      have := hwf y.v (by rw [hL]; simp)
      simp only [Apart] at *; omega
    obtain ⟨t', lo, hi, h1, h2, h3, h4, h5, h6⟩ :=
      set_spec (f := fun u : Slice β => (u.min : Int) - s.min) h.valid hy hmono
        (fun hlt => ⟨hr (by omega), fun a ha => by have := (k1 (by omega)).2 a ha; omega⟩)
        (fun hgt => ⟨hl (by omega), fun a ha => by have := (k2 (by omega)).1 a ha; omega⟩)
        (by omega) s
    rw [h.list] at h3
    have hlo : ∀ u ∈ lo, u.max < s.min := by
      intro u hu
      have := hap u (by rw [h3]; simp [hu])
      have := h5 u hu
      simp only [Apart] at *; omega
    have hhi : ∀ u ∈ hi, s.max < u.min := by
      intro u hu
      have := hap u (by rw [h3]; simp [hu])
      have := h6 u hu
      have := hwf u (by rw [h3]; simp [hu])
      simp only [Apart] at *; omega
    have hs' := h.sorted
    rw [h3] at hs'
    refine ⟨⟨t', m.count + 1⟩, lo, hi, ?_, h3, ⟨h2, h4, ⟨?_, ?_⟩, ?_⟩, hlo, hhi⟩
    · simp only [add, hf, Res.bind_ok]
      rw [if_neg (by omega), h1]; rfl
    · have pw := hs'.pw
      rw [List.pairwise_append] at pw ⊢
      obtain ⟨p1, p2, p3⟩ := pw
      refine ⟨p1, List.pairwise_cons.2 ⟨hhi, p2⟩, ?_⟩
      intro a ha b hb
      simp at hb
      rcases hb with rfl | hb
      · exact hlo a ha
      · exact p3 a ha b hb
    · intro u hu
      simp at hu
      rcases hu with hu | rfl | hu
      · exact hs'.wf u (by simp [hu])
      · exact ⟨hs, hmax⟩
      · exact hs'.wf u (by simp [hu])
    · simp [h.count, h3]; omega

/-- Removing a present range. -/
theorem removeAt_spec {m : Mapping β} {L : List (Slice β)} (h : Inv m L) {x : Loc (Slice β)}
    (hx : x.tree = m.tree) : ∃ m', m.removeAt x = .ok m' ∧ L = x.lo ++ x.v :: x.hi ∧
      Inv m' (x.lo ++ x.hi) := by
  have hL : L = x.lo ++ x.v :: x.hi := by rw [← h.list, ← hx, x.inorder_eq]
  obtain ⟨t, h1, h2⟩ := remove_valid (n := x) (by rw [hx]; exact h.valid)
  have h3 : inorder t = x.lo ++ x.hi := remove_inorder h1
  have hc : m.count ≠ 0 := by rw [h.count, hL]; simp
  refine ⟨⟨t, m.count - 1⟩, by simp [removeAt, h1, hc], hL, h2, h3, ?_, ?_⟩
  · obtain ⟨pw, wf⟩ := h.sorted
    rw [hL] at pw wf
    rw [List.pairwise_append, List.pairwise_cons] at pw
    obtain ⟨p1, ⟨p2, p3⟩, p4⟩ := pw
    refine ⟨List.pairwise_append.2 ⟨p1, p3, fun a ha b hb => p4 a ha b (by simp [hb])⟩, ?_⟩
    intro s hs
    exact wf s (by simp at hs ⊢; grind)
  · simp [h.count, hL]

theorem remove_spec {m : Mapping β} {L : List (Slice β)} (h : Inv m L) {is : Slice β → Bool}
    (hex : ∃ s ∈ L, is s = true) : ∃ m' lo v hi, m.remove is = .ok m' ∧ L = lo ++ v :: hi ∧
      is v = true ∧ (∀ a ∈ lo, is a = false) ∧ Inv m' (lo ++ hi) := by
  simp only [remove]
  cases hl : locate is m.tree [] with
  | none =>
    obtain ⟨s, hs, his⟩ := hex
    have := locate_none hl s (by rw [h.list]; exact hs)
    simp [this] at his
  | some x =>
    obtain ⟨h1, h2, lo, h3, h4⟩ := locate_some hl
    obtain ⟨m', e1, e2, e3⟩ := removeAt_spec h (x := x) h1
    simp at h3
    exact ⟨m', x.lo, x.v, x.hi, e1, e2, h2, by rw [h3]; exact h4, e3⟩

theorem next_spec {L : List (Slice β)} {t} {x : Loc (Slice β)} (hx : x.tree = t)
    (hL : L = inorder t) :
    (next x = none ∧ x.hi = []) ∨
    (∃ y, next x = some y ∧ y.tree = t ∧ L = (x.lo ++ [x.v]) ++ y.v :: y.hi ∧
      y.lo = x.lo ++ [x.v] ∧ x.hi = y.v :: y.hi) := by
  cases hn : next x with
  | none => exact .inl ⟨rfl, next_none hn⟩
  | some y =>
    obtain ⟨h1, h2⟩ := next_some hn
    have h3 : y.tree = t := h1.trans hx
    have e1 := x.inorder_eq
    have e2 := y.inorder_eq
    rw [h1, e1, h2] at e2
    simp at e2
    refine .inr ⟨y, rfl, h3, ?_, h2, e2⟩
    rw [hL, ← hx, e1, e2]; simp

theorem prev_spec {L : List (Slice β)} {t} {x : Loc (Slice β)} (hx : x.tree = t)
    (hL : L = inorder t) :
    (prev x = none ∧ x.lo = []) ∨
    (∃ y, prev x = some y ∧ y.tree = t ∧ x.lo = y.lo ++ [y.v] ∧ y.hi = x.v :: x.hi ∧
      L = y.lo ++ y.v :: y.hi) := by
  cases hn : prev x with
  | none => exact .inl ⟨rfl, prev_none hn⟩
  | some y =>
    obtain ⟨h1, h2⟩ := prev_some hn
    have h3 : y.tree = t := h1.trans hx
    have e1 := x.inorder_eq
    have e2 := y.inorder_eq
    have e3 := e2
    rw [h1, e1, h2] at e2
    have e4 : x.lo = y.lo ++ [y.v] := by
      have : (x.lo) ++ (x.v :: x.hi) = (y.lo ++ [y.v]) ++ (x.v :: x.hi) := by simpa using e2
      exact List.append_cancel_right this
    refine .inr ⟨y, rfl, h3, e4, h2, ?_⟩
    rw [hL, ← h3, e3]

/-- mapping_seek: the partition with the greatest min at or below the id, or
the first one when there is none. -/
theorem seek_lists {m : Mapping β} {L : List (Slice β)} (h : Lists m L) (id : Nat)
    (hid : id < 9223372036854775808) (hn : Near L id) (hne : L ≠ []) :
    ∃ y : Loc (Slice β), m.seek id = .ok y ∧ y.tree = m.tree ∧ L = y.lo ++ y.v :: y.hi ∧
      (∀ a ∈ y.hi, a.min > id) ∧ (y.v.min ≤ id ∨ y.lo = []) := by
  rcases find_lists h id hid hn with ⟨hL, hf⟩ | ⟨y, hf, hy, hL, k1, k2, hr, hl⟩
  · exact absurd hL hne
  · simp only [seek, hf, Res.bind_ok]
    by_cases hgt : y.v.min > id
    · rw [if_pos (by omega)]
      rcases prev_spec hy h.list.symm with ⟨hp, hlo⟩ | ⟨z, hp, hz, e1, e2, e3⟩
      · rw [hp]; exact ⟨y, rfl, hy, hL, (k2 hgt).2, .inr hlo⟩
      · rw [hp]
        refine ⟨z, rfl, hz, e3, ?_, .inl ?_⟩
        · rw [e2]; intro a ha; simp at ha
          rcases ha with rfl | ha
          · exact hgt
          · exact (k2 hgt).2 a ha
        · have := (k2 hgt).1 z.v (by rw [e1]; simp); omega
    · rw [if_neg (by omega)]
      exact ⟨y, rfl, hy, hL, (k1 (by omega)).2, .inl (by omega)⟩

theorem seek_spec {m : Mapping β} {L : List (Slice β)} (h : Inv m L) (id : Nat)
    (hid : id < 9223372036854775808) (hn : Near L id) (hne : L ≠ []) :
    ∃ y : Loc (Slice β), m.seek id = .ok y ∧ y.tree = m.tree ∧ L = y.lo ++ y.v :: y.hi ∧
      (∀ a ∈ y.hi, a.min > id) ∧ (y.v.min ≤ id ∨ y.lo = []) :=
  seek_lists h.lists id hid hn hne

theorem match_lists {m : Mapping β} {L : List (Slice β)} (h : Lists m L) (id : Nat)
    (hid : id < 9223372036854775808) (hn : Near L id) :
    ∃ r, m.match id = .ok r ∧ IsMatch L id (r.map (·.v)) ∧ (∀ x, r = some x → x.tree = m.tree) := by
  by_cases hne : L = []
  · subst hne
    exact ⟨none, by simp [«match», h.count], by simp [IsMatch], by simp⟩
  · obtain ⟨y, hs, hy, hL, h1, h2⟩ := seek_lists h id hid hn hne
    have hc : m.count ≠ 0 := by
      rw [h.count]; simpa using hne
    simp only [«match», hc, if_false, hs, Res.bind_ok]
    have pr := (hL ▸ h.sorted).parts
    cases hin : sliceIn y.v id with
    | true =>
      refine ⟨some y, rfl, ?_, by rintro x ⟨⟩; exact hy⟩
      simp only [sliceIn, Bool.and_eq_true, decide_eq_true_eq] at hin
      exact ⟨by rw [hL]; simp, hin⟩
    | false =>
      refine ⟨none, rfl, ?_, by simp⟩
      simp only [sliceIn, Bool.and_eq_false_iff, decide_eq_false_iff_not] at hin
      intro s hs' hcov
      rw [hL] at hs'
      simp only [Covers] at hcov
      simp at hs'
      rcases hs' with hs' | rfl | hs'
      · have := pr.1 s hs'
        rcases h2 with h2 | h2
        · omega
        · rw [h2] at hs'; simp at hs'
      · omega
      · have := h1 s hs'; omega

theorem match_spec {m : Mapping β} {L : List (Slice β)} (h : Inv m L) (id : Nat)
    (hid : id < 9223372036854775808) (hn : Near L id) :
    ∃ r, m.match id = .ok r ∧ IsMatch L id (r.map (·.v)) ∧ (∀ x, r = some x → x.tree = m.tree) :=
  match_lists h.lists id hid hn

theorem gte_spec {m : Mapping β} {L : List (Slice β)} (h : Inv m L) (id : Nat)
    (hid : id < 9223372036854775808) (hn : Near L id) :
    ∃ r, m.gte id = .ok r ∧ IsGte L id (r.map (·.v)) ∧ (∀ x, r = some x → x.tree = m.tree) := by
  by_cases hne : L = []
  · subst hne
    exact ⟨none, by simp [gte, h.count], by simp [IsGte], by simp⟩
  · obtain ⟨y, hs, hy, hL, h1, h2⟩ := seek_spec h id hid hn hne
    have hc : m.count ≠ 0 := by
      rw [h.count]; simpa using hne
    simp only [gte, hc, if_false, hs, Res.bind_ok]
    have pr := (hL ▸ h.sorted).parts
    have hlo : ∀ u ∈ y.lo, u.max < id := by
      intro u hu
      rcases h2 with h2 | h2
      · have := pr.1 u hu; omega
      · rw [h2] at hu; simp at hu
    by_cases hlt : y.v.max < id
    · rw [if_pos hlt]
      rcases next_spec hy h.list.symm with ⟨hp, hhi⟩ | ⟨z, hp, hz, e1, e2, e3⟩
      · rw [hp]
        refine ⟨none, rfl, ?_, by simp⟩
        intro s hs'
        rw [hL, hhi] at hs'
        simp at hs'
        rcases hs' with hs' | rfl
        · exact hlo s hs'
        · exact hlt
      · rw [hp]
        refine ⟨some z, rfl, ?_, by rintro x ⟨⟩; exact hz⟩
        have hzmin := h1 z.v (by rw [e3]; simp)
        have hzw := pr.2.1 z.v (by rw [e3]; simp)
        refine ⟨by rw [e1]; simp, ?_, ?_⟩
        · simp; omega
        · intro u hu hid'
          rw [e1] at hu
          have pz := (e1 ▸ h.sorted).parts
          simp at hu
          rcases hu with (hu | rfl | rfl | hu)
          · have := hlo u hu; omega
          · omega
          · simp
          · have := pz.2.1 u hu; simp; omega
    · rw [if_neg hlt]
      refine ⟨some y, rfl, ?_, by rintro x ⟨⟩; exact hy⟩
      refine ⟨by rw [hL]; simp, ?_, ?_⟩
      · simp; omega
      · intro u hu hid'
        rw [hL] at hu
        simp at hu
        rcases hu with hu | rfl | hu
        · have := hlo u hu; omega
        · simp
        · have := pr.2.1 u hu; simp; omega

end Verif.Mapping
