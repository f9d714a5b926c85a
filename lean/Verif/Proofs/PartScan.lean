import Verif.Proofs.PartOpen

namespace Verif.Io

/-- The iterator stands on event `j` of region `i`. -/
structure At (cs : Codecs) (p : PartFile) (rs : List (List Event)) (it : PartIterator) (i j : Nat) : Prop where
  part : it.part = p
  index : ∃ ir, it.index_it = ⟨p.index, p.index_data, some ir, i⟩
  region : ∃ r rg e, rs[i]? = some r ∧ r[j]? = some e ∧ rg.events = r.length ∧
    (∀ (k : Nat) (x : Event), r[k]? = some x → rg.get k = .ok x) ∧ it.region_it = some ⟨rg, j, some e⟩

theorem set_pos_ok {rg : Region} {j : Nat} {e : Event} (hl : j < rg.events) (hg : rg.get j = .ok e) :
    RegionIterator.set_pos rg j = .ok ⟨rg, j, some e⟩ := by
  unfold RegionIterator.set_pos
  rw [if_neg (by omega), hg]
  rfl

theorem set_pos_end {rg : Region} {j : Nat} (hl : rg.events ≤ j) : RegionIterator.set_pos rg j = .ok ⟨rg, 0, none⟩ := by
  unfold RegionIterator.set_pos
  rw [if_pos hl]

/-- The end of the file. -/
structure AtEnd (p : PartFile) (it : PartIterator) : Prop where
  part : it.part = p
  none : it.at_ = none

/-- Moving to the first event of the next region. -/
theorem skip_ok {cs : Codecs} {mc : MemCmp} {p : PartFile} {rs : List (List Event)} (hrep : Rep cs p rs)
    {it : PartIterator} {i n : Nat} (hpart : it.part = p) {cur : Option IndexRegion}
    (hidx : it.index_it = ⟨p.index, p.index_data, cur, i⟩) (hnone : it.at_ = none) (hn : n ≠ 0) :
    (rs.length ≤ i + 1 → ∃ it', PartIterator.skip cs mc n it = .ok it' ∧ AtEnd p it') ∧
    (i + 1 < rs.length → ∃ it', PartIterator.skip cs mc n it = .ok it' ∧ At cs p rs it' (i + 1) 0) := by
  obtain ⟨n, rfl⟩ := Nat.exists_eq_succ_of_ne_zero hn
  constructor
  · intro h
    rw [PartIterator.skip, hnone]
    dsimp only
    have hnx : it.index_it.next = .ok ⟨p.index, p.index_data, none, i + 1⟩ := by
      rw [hidx]
      unfold IndexIterator.next
      dsimp only
      rw [if_pos (by rw [hrep.regions]; exact h)]
    rw [hnx]
    refine ⟨{ it with index_it := ⟨p.index, p.index_data, none, i + 1⟩ }, rfl, hpart, hnone⟩
  · intro h
    rw [PartIterator.skip, hnone]
    dsimp only
    obtain ⟨hne, ir, rg, g1, _, _, _, g4, g5, g6⟩ := hrep.region (i + 1) rs[i + 1] (List.getElem?_eq_getElem h)
    have hnx : it.index_it.next = .ok ⟨p.index, p.index_data, some ir, i + 1⟩ := by
      rw [hidx]
      unfold IndexIterator.next
      dsimp only
      rw [if_neg (by rw [hrep.regions]; omega), g1]
      rfl
    rw [hnx]
    simp only [Res.bind_ok]
    rw [hpart, g4]
    simp only [Res.bind_ok]
    obtain ⟨e, l, hel⟩ : ∃ e l, rs[i + 1] = e :: l := by
      cases hrr : rs[i + 1] with
      | nil => exact absurd hrr hne
      | cons e l => exact ⟨e, l, rfl⟩
    have h0 : rg.get 0 = .ok e := g6 0 e (by rw [hel]; rfl)
    have hlen : 0 < rg.events := by rw [g5, hel]; simp
    have hop : RegionIterator.open_ mc rg none = .ok (⟨rg, 0, some e⟩, false) := by
      unfold RegionIterator.open_
      rw [if_neg (by omega)]
      simp only [Res.bind_ok]
      rw [set_pos_ok hlen h0]
      rfl
    rw [hop]
    simp only [Res.bind_ok]
    rw [PartIterator.skip.eq_def]
    dsimp only [PartIterator.at_, Option.bind]
    refine ⟨_, rfl, rfl, ⟨ir, rfl⟩, rs[i + 1], rg, e, List.getElem?_eq_getElem h, by rw [hel]; rfl, g5, g6, rfl⟩

/-- One step. -/
theorem next_ok {cs : Codecs} {mc : MemCmp} {p : PartFile} {rs : List (List Event)} (hrep : Rep cs p rs)
    {it : PartIterator} {i j : Nat} (h : At cs p rs it i j) {r : List Event} (hr : rs[i]? = some r) :
    (j + 1 < r.length → ∃ it', PartIterator.next cs mc it = .ok it' ∧ At cs p rs it' i (j + 1)) ∧
    (r.length ≤ j + 1 → i + 1 < rs.length → ∃ it', PartIterator.next cs mc it = .ok it' ∧ At cs p rs it' (i + 1) 0) ∧
    (r.length ≤ j + 1 → rs.length ≤ i + 1 → ∃ it', PartIterator.next cs mc it = .ok it' ∧ AtEnd p it') := by
  obtain ⟨hpart, ⟨ir, hidx⟩, r', rg, e, k1, k2, k3, k4, k5⟩ := h
  rw [hr] at k1
  have k1 := Option.some.inj k1
  subst k1
  have hi : i < rs.length := (List.getElem?_eq_some_iff.1 hr).1
  have hn0 : it.part.index.regions ≠ 0 := by rw [hpart, hrep.regions]; omega
  have key : ∀ ri, RegionIterator.set_pos rg (j + 1) = .ok ri →
      PartIterator.next cs mc it = PartIterator.skip cs mc it.part.index.regions { it with region_it := some ri } := by
    intro ri hri
    unfold PartIterator.next
    rw [hidx, k5]
    dsimp only
    unfold RegionIterator.next
    dsimp only
    rw [hri]
    rfl
  refine ⟨fun hlt => ?_, fun hge hlt => ?_, fun hge hge' => ?_⟩
  · have hx := List.getElem?_eq_getElem hlt
    have hg := k4 _ _ hx
    have hs := set_pos_ok (by rw [k3]; exact hlt) hg
    refine ⟨{ it with region_it := some ⟨rg, j + 1, some r[j + 1]⟩ }, ?_, hpart, ⟨ir, hidx⟩, r, rg, r[j + 1], hr, hx, k3, k4, rfl⟩
    rw [key _ hs, PartIterator.skip.eq_def]
    rfl
  · have hs := set_pos_end (rg := rg) (j := j + 1) (by rw [k3]; exact hge)
    obtain ⟨it', g1, g2⟩ := (skip_ok (mc := mc) hrep (it := { it with region_it := some ⟨rg, 0, none⟩ }) hpart hidx rfl hn0).2 hlt
    exact ⟨it', (key _ hs).trans g1, g2⟩
  · have hs := set_pos_end (rg := rg) (j := j + 1) (by rw [k3]; exact hge)
    obtain ⟨it', g1, g2⟩ := (skip_ok (mc := mc) hrep (it := { it with region_it := some ⟨rg, 0, none⟩ }) hpart hidx rfl hn0).1 hge'
    exact ⟨it', (key _ hs).trans g1, g2⟩

/-- Reading on from event `j` of region `i`. -/
theorem yields_at {cs : Codecs} {mc : MemCmp} {p : PartFile} {rs : List (List Event)} (hrep : Rep cs p rs) (n : Nat) :
    ∀ (m : Nat) (it : PartIterator) (i j : Nat) (r : List Event), At cs p rs it i j → rs[i]? = some r →
      rs.length = i + n → r.length = j + m →
      Yields PartIterator.at_ (PartIterator.next cs mc) it (r.drop j ++ (rs.drop (i + 1)).flatten) := by
  induction n with
  | zero =>
    intro m it i j r h hr hl
    have := (List.getElem?_eq_some_iff.1 hr).1
    omega
  | succ n ihn =>
    intro m
    induction m with
    | zero =>
      intro it i j r h hr hl hm
      obtain ⟨_, _, r', _, e, k1, k2, _⟩ := h
      rw [hr] at k1
      have k1 := Option.some.inj k1
      subst k1
      have := (List.getElem?_eq_some_iff.1 k2).1
      omega
    | succ m ihm =>
      intro it i j r h hr hl hm
      obtain ⟨n1, n2, n3⟩ := next_ok (mc := mc) hrep h hr
      obtain ⟨_, _, r', _, e, k1, k2, _, _, k5⟩ := h
      rw [hr] at k1
      have k1 := Option.some.inj k1
      subst k1
      obtain ⟨hjl, hje⟩ := List.getElem?_eq_some_iff.1 k2
      have hat : it.at_ = some e := by unfold PartIterator.at_; rw [k5]; rfl
      rw [List.drop_eq_getElem_cons hjl, hje, List.cons_append]
      by_cases hlast : j + 1 < r.length
      · obtain ⟨it', g1, g2⟩ := n1 hlast
        exact .more hat g1 (ihm it' i (j + 1) r g2 hr hl (by omega))
      · by_cases hi : i + 1 < rs.length
        · obtain ⟨it', g1, g2⟩ := n2 (by omega) hi
          refine .more hat g1 ?_
          have hx := List.getElem?_eq_getElem hi
          have := ihn rs[i + 1].length it' (i + 1) 0 rs[i + 1] g2 hx (by omega) (by omega)
          rw [List.drop_eq_nil_of_le (by omega), List.nil_append, List.drop_eq_getElem_cons hi, List.flatten_cons]
          exact this
        · obtain ⟨it', g1, g2⟩ := n3 (by omega) (by omega)
          refine .more hat g1 ?_
          rw [List.drop_eq_nil_of_le (by omega), List.drop_eq_nil_of_le (by omega)]
          exact .done g2.none

/-- A full scan. -/
theorem scan_ok {cs : Codecs} {mc : MemCmp} {p : PartFile} {rs : List (List Event)} (hrep : Rep cs p rs) :
    ∃ it, PartIterator.open_ cs mc p none = .ok (it, false) ∧
      Yields PartIterator.at_ (PartIterator.next cs mc) it rs.flatten := by
  unfold PartIterator.open_ IndexIterator.open_
  by_cases h0 : p.index.regions = 0
  · rw [if_pos h0]
    have : rs = [] := by
      have := hrep.regions
      exact List.eq_nil_of_length_eq_zero (by omega)
    subst this
    exact ⟨_, rfl, .done rfl⟩
  · rw [if_neg h0]
    have hl : 0 < rs.length := by have := hrep.regions; omega
    obtain ⟨hne, ir, rg, g1, _, _, _, g4, g5, g6⟩ := hrep.region 0 rs[0] (List.getElem?_eq_getElem hl)
    simp only [Option.map_none]
    rw [g1]
    simp only [Res.bind_ok]
    rw [g4]
    simp only [Res.bind_ok]
    obtain ⟨e, l, hel⟩ : ∃ e l, rs[0] = e :: l := by
      cases hrr : rs[0] with
      | nil => exact absurd hrr hne
      | cons e l => exact ⟨e, l, rfl⟩
    have h0 : rg.get 0 = .ok e := g6 0 e (by rw [hel]; rfl)
    have hlen : 0 < rg.events := by rw [g5, hel]; simp
    have hop : RegionIterator.open_ mc rg none = .ok (⟨rg, 0, some e⟩, false) := by
      unfold RegionIterator.open_
      rw [if_neg (by omega)]
      simp only [Res.bind_ok]
      rw [set_pos_ok hlen h0]
      rfl
    rw [hop]
    refine ⟨_, rfl, ?_⟩
    have hat : At cs p rs ⟨p, ⟨p.index, p.index_data, some ir, 0⟩, some ⟨rg, 0, some e⟩⟩ 0 0 :=
      ⟨rfl, ⟨ir, rfl⟩, rs[0], rg, e, List.getElem?_eq_getElem hl, by rw [hel]; rfl, g5, g6, rfl⟩
    have := yields_at (mc := mc) hrep rs.length rs[0].length _ 0 0 rs[0] hat (List.getElem?_eq_getElem hl) (by omega) (by omega)
    rw [List.drop_zero] at this
    have hfl : rs.flatten = rs[0] ++ (rs.drop (0 + 1)).flatten := by
      conv => lhs; rw [← List.drop_zero (l := rs), List.drop_eq_getElem_cons hl, List.flatten_cons]
    rw [hfl]
    exact this

end Verif.Io
