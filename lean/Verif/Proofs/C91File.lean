import Verif.Proofs.C91Same
import Verif.Proofs.C11

/-! The regions read through the iterator of a file. -/
namespace Verif.C91
open Spec Io Reads
open Cursor (CPart)

/-- The file `p` holds the regions `rs`, and its index says which ids they have. -/
structure Good (cs : Codecs) (p : PartFile) (rs : List (List Event)) : Prop where
  rep : Rep cs p rs
  bounds : ∀ (i : Nat) ir r, p.index.get p.index_data i = .ok ir → rs[i]? = some r → ∀ e ∈ r, ir.min ≤ e.id ∧ e.id ≤ ir.max

/-- The iterator of the file `p`, opened at region `a`: it has read the regions
from `a` to the one it is in, or to the end. -/
structure FInv (cs : Codecs) (p : PartFile) (rs : List (List Event)) (id : Nat) (K : Option Event) (a : Nat) (f : File) :
    Prop where
  id_eq : f.part = id
  part : f.it.part = p
  log : ∀ r ∈ f.log, r.part = id ∧ p.index.get p.index_data r.pos = .ok r.region ∧ r.pos < rs.length
  seq : ∃ n, f.log.map (·.pos) = List.range' a n ∧
    ((∃ ir i, f.it.index_it = ⟨p.index, p.index_data, some ir, i⟩ ∧ n ≠ 0 ∧ i + 1 = a + n) ∨
     (f.it.index_it.current = none ∧ f.it.at_ = none ∧ rs.length ≤ a + n))
  here : ∀ e, f.it.at_ = some e → ∃ i j, At cs p rs f.it i j
  full : K = none → f.it.at_ = none → f.it.index_it.current = none

theorem skip_log {cs : Codecs} {mc : MemCmp} {p : PartFile} {rs : List (List Event)} (hrep : Rep cs p rs)
    {f f' : File} {i n : Nat} (hpart : f.it.part = p) {cur : Option IndexRegion}
    (hidx : f.it.index_it = ⟨p.index, p.index_data, cur, i⟩) (hnone : f.it.at_ = none) (hn : n ≠ 0)
    (h : File.skip cs mc n f = .ok f') :
    (rs.length ≤ i + 1 → f' = { f with it := { f.it with index_it := ⟨p.index, p.index_data, none, i + 1⟩ } }) ∧
    (i + 1 < rs.length → ∃ ir, p.index.get p.index_data (i + 1) = .ok ir ∧ f'.part = f.part ∧
      f'.log = f.log ++ [⟨f.part, i + 1, ir⟩] ∧ At cs p rs f'.it (i + 1) 0) := by
  obtain ⟨n, rfl⟩ := Nat.exists_eq_succ_of_ne_zero hn
  constructor
  · intro hl
    rw [File.skip, hnone] at h
    dsimp only at h
    have hnx : f.it.index_it.next = .ok ⟨p.index, p.index_data, none, i + 1⟩ := by
      rw [hidx]
      unfold IndexIterator.next
      dsimp only
      rw [if_pos (by rw [hrep.regions]; exact hl)]
    rw [hnx] at h
    cases h
    rfl
  · intro hl
    rw [File.skip, hnone] at h
    dsimp only at h
    obtain ⟨hne, ir, rg, g1, _, _, _, g4, g5, g6⟩ := hrep.region (i + 1) rs[i + 1] (List.getElem?_eq_getElem hl)
    have hnx : f.it.index_it.next = .ok ⟨p.index, p.index_data, some ir, i + 1⟩ := by
      rw [hidx]
      unfold IndexIterator.next
      dsimp only
      rw [if_neg (by rw [hrep.regions]; omega), g1]
      rfl
    rw [hnx] at h
    simp only [Res.bind_ok] at h
    rw [hpart, g4] at h
    simp only [Res.bind_ok] at h
    obtain ⟨e, l, hel⟩ : ∃ e l, rs[i + 1] = e :: l := by
      cases hrr : rs[i + 1] with
      | nil => exact absurd hrr hne
      | cons e l => exact ⟨e, l, rfl⟩
    have h0 : rg.get 0 = .ok e := g6 0 e (by rw [hel]; rfl)
    have hlen : 0 < rg.events := by rw [g5, hel]; simp
    have hop : RegionIterator.open_ mc rg none = .ok (⟨rg, 0, some e⟩, false) := by
      unfold RegionIterator.open_
      rw [if_neg (by omega)]
      simp only [Res.bind_ok]
      rw [set_pos_ok hlen h0]
      rfl
    rw [hop] at h
    simp only [Res.bind_ok] at h
    rw [File.skip.eq_def] at h
    dsimp only [PartIterator.at_, Option.bind] at h
    cases h
    exact ⟨ir, g1, rfl, rfl, rfl, ⟨ir, rfl⟩, rs[i + 1], rg, e, List.getElem?_eq_getElem hl, by rw [hel]; rfl, g5, g6, rfl⟩

theorem at_some {cs : Codecs} {p : PartFile} {rs : List (List Event)} {it : PartIterator} {i j : Nat}
    (h : At cs p rs it i j) : ∃ e, it.at_ = some e := by
  obtain ⟨_, _, _, _, e, _, _, _, _, k5⟩ := h
  exact ⟨e, by unfold PartIterator.at_; rw [k5]; rfl⟩

/-- A step reads nothing, or one region and is at an event then. -/
theorem next_log {cs : Codecs} {mc : MemCmp} {p : PartFile} {rs : List (List Event)} (hrep : Rep cs p rs)
    {id : Nat} {K : Option Event} {a : Nat} {f f' : File} (h : FInv cs p rs id K a f)
    (hn : File.next cs mc f = .ok f') :
    FInv cs p rs id K a f' ∧ (f'.log = f.log ∨ ((∃ r, f'.log = f.log ++ [r]) ∧ f'.it.at_ ≠ none)) := by
  obtain ⟨n, hseq, hcase⟩ := h.seq
  rcases hcase with ⟨ir, i, hidx, hn0, hi⟩ | ⟨hcur, hat, hlen⟩
  · have hreg : rs.length ≠ 0 := by
      intro h0
      cases n with
      | zero => exact hn0 rfl
      | succ n =>
        have hm : a ∈ f.log.map (·.pos) := by rw [hseq]; simp
        obtain ⟨r, hr, _⟩ := List.mem_map.1 hm
        have := (h.log r hr).2.2
        omega
    have hpr : p.index.regions ≠ 0 := by rw [hrep.regions]; exact hreg
    have hdone : ∀ (f1 : File), f1.part = f.part → f1.log = f.log → f1.it.part = p →
        f1.it.index_it = f.it.index_it → f1.it.at_ = none → File.skip cs mc p.index.regions f1 = .ok f' →
        FInv cs p rs id K a f' ∧ (f'.log = f.log ∨ ((∃ r, f'.log = f.log ++ [r]) ∧ f'.it.at_ ≠ none)) := by
      intro f1 e1 e2 e3 e4 e5 hs
      obtain ⟨s1, s2⟩ := skip_log hrep (f := f1) e3 (e4.trans hidx) e5 hpr hs
      by_cases hl : i + 1 < rs.length
      · obtain ⟨ir', g1, g2, g3, g4⟩ := s2 hl
        obtain ⟨e, he⟩ := at_some g4
        refine ⟨⟨g2.trans (e1.trans h.id_eq), g4.part, ?_, ⟨n + 1, ?_, .inl ?_⟩, fun _ _ => ⟨_, _, g4⟩, fun _ hx => ?_⟩, .inr ⟨⟨⟨f1.part, i + 1, ir'⟩, ?_⟩, ?_⟩⟩
        · intro r hr
          rw [g3, e2] at hr
          rcases List.mem_append.1 hr with hr | hr
          · exact h.log r hr
          · simp only [List.mem_singleton] at hr
            subst hr
            exact ⟨e1.trans h.id_eq, g1, hl⟩
        · rw [g3, e2, List.map_append, hseq, List.range'_concat]
          simp only [List.map_cons, List.map_nil]
          congr 2
          omega
        · obtain ⟨ir2, hi2⟩ := g4.index
          exact ⟨ir2, i + 1, hi2, by omega, by omega⟩
        · rw [he] at hx; cases hx
        · exact g3.trans (by rw [e2])
        · rw [he]; simp
      · have hf := s1 (by omega)
        subst hf
        refine ⟨⟨e1.trans h.id_eq, e3, ?_, ⟨n, ?_, .inr ⟨rfl, e5, by omega⟩⟩, fun e he => ?_, fun _ _ => rfl⟩, .inl e2⟩
        · intro r hr
          exact h.log r (by rw [← e2]; exact hr)
        · show f1.log.map _ = _
          rw [e2]; exact hseq
        · have : f1.it.at_ = some e := he
          rw [e5] at this; cases this
    unfold File.next at hn
    rw [hidx] at hn
    cases hri : f.it.region_it with
    | none => rw [hri] at hn; cases hn
    | some ri =>
      rw [hri] at hn
      dsimp only at hn
      obtain ⟨ri2, hr2, hs⟩ := Res.bind_eq_ok.1 hn
      rw [h.part] at hs
      cases hat : f.it.at_ with
      | none =>
        have hc : ri.current = none := by
          unfold PartIterator.at_ at hat
          rw [hri] at hat
          exact hat
        have : ri2 = ri := by
          unfold RegionIterator.next at hr2
          rw [hc] at hr2
          cases hr2; rfl
        subst this
        exact hdone { f with it := { f.it with part := p, region_it := some ri2 } } rfl rfl rfl rfl hc hs
      | some e =>
        obtain ⟨i', j, hA⟩ := h.here e hat
        obtain ⟨_, ⟨ir', hidx'⟩, r, rg, e', k1, k2, k3, k4, k5⟩ := hA
        rw [hidx] at hidx'
        cases hidx'
        rw [hri] at k5
        cases k5
        have hr2' : RegionIterator.set_pos rg (j + 1) = .ok ri2 := hr2
        by_cases hj : j + 1 < r.length
        · have hx := List.getElem?_eq_getElem hj
          rw [set_pos_ok (by rw [k3]; exact hj) (k4 _ _ hx)] at hr2'
          cases hr2'
          rw [File.skip.eq_def] at hs
          dsimp only [PartIterator.at_, Option.bind] at hs
          cases hs
          refine ⟨⟨h.id_eq, rfl, h.log, ⟨n, hseq, .inl ⟨ir, i, hidx, hn0, hi⟩⟩, fun _ _ => ⟨i, j + 1, rfl, ⟨ir, hidx⟩, r, rg, _, k1, hx, k3, k4, rfl⟩, ?_⟩, .inl rfl⟩
          intro _ hx'
          have : some (r[j + 1]) = (none : Option Event) := hx'
          cases this
        · rw [set_pos_end (by rw [k3]; omega)] at hr2'
          cases hr2'
          exact hdone { f with it := { f.it with part := p, region_it := some ⟨rg, 0, none⟩ } } rfl rfl rfl rfl rfl hs
  · unfold File.next at hn
    rw [hcur] at hn
    cases hn
    exact ⟨h, .inl rfl⟩

/-- Where the index iterator is after it was opened. -/
theorem index_open {i : Index} {data : Bytes} {key : Option Nat} {it : IndexIterator}
    (h : IndexIterator.open_ i data key = .ok it) :
    (∃ r, it = ⟨i, data, some r, it.pos⟩ ∧ i.get data it.pos = .ok r ∧ it.pos < i.regions) ∨
    (it.current = none ∧ i.regions ≤ it.pos) := by
  unfold IndexIterator.open_ at h
  by_cases h0 : i.regions = 0
  · rw [if_pos h0] at h; cases h; exact .inr ⟨rfl, by omega⟩
  · rw [if_neg h0] at h
    cases key with
    | none =>
      obtain ⟨r, hr, h⟩ := Res.bind_eq_ok.1 h
      cases h; exact .inl ⟨r, rfl, hr, by show 0 < _; omega⟩
    | some id =>
      obtain ⟨pos, _, h⟩ := Res.bind_eq_ok.1 h
      obtain ⟨r, _, h⟩ := Res.bind_eq_ok.1 h
      obtain ⟨d, _, h⟩ := Res.bind_eq_ok.1 h
      dsimp only at h
      generalize (if wrapS32 d < 0 then pos + 1 else pos) = q at h
      by_cases h1 : i.regions ≤ q
      · rw [if_pos h1] at h; cases h; exact .inr ⟨rfl, h1⟩
      · rw [if_neg h1] at h
        obtain ⟨r, hr, h⟩ := Res.bind_eq_ok.1 h
        cases h; exact .inl ⟨r, rfl, hr, by show q < _; omega⟩

/-- Opening reads at most one region, the one the index iterator is at. -/
theorem open_log {cs : Codecs} {mc : MemCmp} {p : PartFile} {rs : List (List Event)} (hrep : Rep cs p rs)
    {id : Nat} {K key : Option Event} (hK : K = none → key = none) {f : File} (h : File.open_ cs mc id p key = .ok f) :
    (∃ ii, IndexIterator.open_ p.index p.index_data (key.map (·.id)) = .ok ii ∧ FInv cs p rs id K ii.pos f) ∧
      f.log.length ≤ 1 ∧ (key = none → f.log ≠ [] → f.it.at_ ≠ none) := by
  unfold File.open_ at h
  obtain ⟨ii, hii, h⟩ := Res.bind_eq_ok.1 h
  rcases index_open hii with ⟨r, e1, e2, e3⟩ | ⟨e1, e2⟩
  · have hc : ii.current = some r := by rw [e1]
    rw [hc] at h
    dsimp only at h
    obtain ⟨rg, hrg, h⟩ := Res.bind_eq_ok.1 h
    obtain ⟨⟨ri, hit⟩, hri, h⟩ := Res.bind_eq_ok.1 h
    cases h
    rw [hrep.regions] at e3
    obtain ⟨hne, ir, rg', g1, _, _, _, g4, g5, g6⟩ := hrep.region ii.pos rs[ii.pos] (List.getElem?_eq_getElem e3)
    rw [e2] at g1
    cases g1
    rw [hrg] at g4
    cases g4
    have hlen : rs[ii.pos].length ≠ 0 := fun h0 => hne (List.length_eq_zero_iff.1 h0)
    unfold RegionIterator.open_ at hri
    rw [if_neg (by omega)] at hri
    obtain ⟨⟨pos, b⟩, hpos, hri⟩ := Res.bind_eq_ok.1 hri
    dsimp only at hri
    obtain ⟨it, hit', hri⟩ := Res.bind_eq_ok.1 hri
    cases hri
    have hst : (∃ e, ri = ⟨rg, pos, some e⟩ ∧ rs[ii.pos][pos]? = some e) ∨ (ri.current = none ∧ key ≠ none) := by
      by_cases hp : pos < rg.events
      · have hx := List.getElem?_eq_getElem (l := rs[ii.pos]) (i := pos) (by omega)
        rw [set_pos_ok hp (g6 _ _ hx)] at hit'
        cases hit'
        exact .inl ⟨_, rfl, hx⟩
      · rw [set_pos_end (by omega)] at hit'
        cases hit'
        refine .inr ⟨rfl, fun hk => ?_⟩
        rw [hk] at hpos
        cases hpos
        omega
    refine ⟨⟨ii, hii, rfl, rfl, ?_, ⟨1, ?_, .inl ⟨r, ii.pos, e1, by simp, rfl⟩⟩, ?_, ?_⟩, by simp, ?_⟩
    · intro x hx
      simp only [List.mem_singleton] at hx
      subst hx
      exact ⟨rfl, e2, e3⟩
    · simp
    · intro e he
      rcases hst with ⟨e', rfl, h2⟩ | ⟨h1, _⟩
      · exact ⟨ii.pos, pos, rfl, ⟨r, e1⟩, _, rg, e', List.getElem?_eq_getElem e3, h2, g5, g6, rfl⟩
      · have : ri.current = some e := he
        rw [h1] at this; cases this
    · intro hKn hat
      rcases hst with ⟨e', rfl, h2⟩ | ⟨_, h2⟩
      · have : some e' = (none : Option Event) := hat
        cases this
      · exact absurd (hK hKn) h2
    · intro hk _ hat
      rcases hst with ⟨e', rfl, h2⟩ | ⟨_, h2⟩
      · have : some e' = (none : Option Event) := hat
        cases this
      · exact h2 hk
  · rw [e1] at h
    cases h
    refine ⟨⟨ii, hii, rfl, rfl, ?_, ⟨0, ?_, .inr ⟨e1, rfl, ?_⟩⟩, ?_, ?_⟩, by simp, ?_⟩
    · intro x hx; cases hx
    · simp
    · rw [← hrep.regions]; omega
    · intro e he; cases he
    · intro _ _; exact e1
    · intro _ h0; exact absurd rfl h0

end Verif.C91
