import Verif.Props.C16
import Verif.Props.C17
import Verif.Proofs.PartScan
import Verif.Proofs.Table
import Verif.Spec.C12

/-! Opening a partition file at a key. -/
namespace Verif.Io
open Spec

theorem exists_list {α : Type} {P : Nat → α → Prop} : ∀ n : Nat, (∀ i < n, ∃ x, P i x) →
    ∃ l : List α, l.length = n ∧ ∀ i x, l[i]? = some x → P i x
  | 0, _ => ⟨[], rfl, by simp⟩
  | n + 1, h => by
    obtain ⟨l, h1, h2⟩ := exists_list n fun i hi => h i (by omega)
    obtain ⟨x, hx⟩ := h n (by omega)
    refine ⟨l ++ [x], by simp [h1], fun i y hy => ?_⟩
    rcases Nat.lt_or_ge i n with hi | hi
    · rw [List.getElem?_append_left (by omega)] at hy
      exact h2 i y hy
    · rw [List.getElem?_append_right (by omega)] at hy
      have := (List.getElem?_eq_some_iff.1 hy).1
      simp at this
      have hin : i = n := by omega
      subst hin
      simp [h1] at hy
      subst hy
      exact hx

attribute [local irreducible] compareInt

/-- The binary search in a region. -/
theorem rsearch_ok {mc : MemCmp} {rg : Region} {r : List Event} {k : Event} {base : Nat}
    (hg : ∀ (j : Nat) (e : Event), r[j]? = some e → rg.get j = .ok e) (ha : Spec.Ascending r)
    (hw : ∀ e ∈ r, Within base e) (hk : Within base k) (n : Nat) :
    ∀ lo hi : Nat, hi - lo ≤ n → lo ≤ hi → hi ≤ r.length → (∀ j e, r[j]? = some e → j < lo → evCmp e k < 0) →
      (∀ j e, r[j]? = some e → hi ≤ j → 0 < evCmp e k) →
      ∃ pos hit, RegionIterator.search mc rg k lo hi = .ok (pos, hit) ∧ pos ≤ r.length ∧
        (∀ j e, r[j]? = some e → j < pos → evCmp e k < 0) ∧ (∀ j e, r[j]? = some e → pos ≤ j → 0 ≤ evCmp e k) := by
  have mono : ∀ {i j : Nat} {a b : Event}, i < j → r[i]? = some a → r[j]? = some b → evCmp a b < 0 := by
    intro i j a b hij h1 h2
    obtain ⟨hi, rfl⟩ := List.getElem?_eq_some_iff.1 h1
    obtain ⟨hj, rfl⟩ := List.getElem?_eq_some_iff.1 h2
    exact List.pairwise_iff_getElem.1 ha i j hi hj hij
  induction n with
  | zero =>
    intro lo hi h0 h1 h2 h3 h4
    have : lo = hi := by omega
    subst this
    refine ⟨lo, false, ?_, h2, h3, fun j e h h' => by have := h4 j e h h'; omega⟩
    rw [RegionIterator.search]
    exact if_neg (Nat.lt_irrefl _)
  | succ n ih =>
    intro lo hi h0 h1 h2 h3 h4
    by_cases hlt : lo < hi
    · have hmid : lo + (hi - 1 - lo) / 2 < hi := by omega
      have hml : lo + (hi - 1 - lo) / 2 < r.length := by omega
      have hx := List.getElem?_eq_getElem hml
      generalize r[lo + (hi - 1 - lo) / 2] = x at hx
      have hxr : x ∈ r := List.mem_of_getElem? hx
      have hc := compareInt_within mc (hw x hxr) hk
      have hstep : RegionIterator.search mc rg k lo hi =
          if compareInt mc x k < 0 then RegionIterator.search mc rg k (lo + (hi - 1 - lo) / 2 + 1) hi
          else if compareInt mc x k > 0 then RegionIterator.search mc rg k lo (lo + (hi - 1 - lo) / 2)
          else .ok (lo + (hi - 1 - lo) / 2, true) := by
        rw [RegionIterator.search]
        refine (if_pos hlt).trans ?_
        dsimp only
        rw [hg _ _ hx, Res.bind_ok]
      rw [hstep]
      by_cases c1 : compareInt mc x k < 0
      · rw [if_pos c1]
        refine ih _ _ (by omega) (by omega) h2 (fun j e hj hlt' => ?_) h4
        rcases Nat.lt_or_ge j (lo + (hi - 1 - lo) / 2) with hj' | hj'
        · exact evCmp_trans (mono hj' hj hx) (hc.1.1 c1)
        · have : j = lo + (hi - 1 - lo) / 2 := by omega
          subst this
          rw [hx] at hj
          cases hj
          exact hc.1.1 c1
      · rw [if_neg c1]
        by_cases c2 : compareInt mc x k > 0
        · rw [if_pos c2]
          refine ih _ _ (by omega) (by omega) (by omega) h3 (fun j e hj hge => ?_)
          rcases Nat.lt_or_ge (lo + (hi - 1 - lo) / 2) j with hj' | hj'
          · have h5 := mono hj' hx hj
            have h6 := hc.2.2.1 c2
            have h7 := evCmp_swap x k
            have h8 := evCmp_trans (a := k) (b := x) (c := e) (by omega) h5
            have := evCmp_swap k e
            omega
          · have : j = lo + (hi - 1 - lo) / 2 := by omega
            subst this
            rw [hx] at hj
            cases hj
            exact hc.2.2.1 c2
        · rw [if_neg c2]
          have h0 : evCmp x k = 0 := by
            have e1 := mt hc.1.2 c1
            have e2 := mt hc.2.2.2 c2
            omega
          refine ⟨_, true, rfl, by omega, fun j e hj hlt' => ?_, fun j e hj hge => ?_⟩
          · exact evCmp_lt_eq (mono hlt' hj hx) h0
          · rcases Nat.lt_or_ge (lo + (hi - 1 - lo) / 2) j with hj' | hj'
            · have h5 := mono hj' hx hj
              rw [evCmp_congr h0] at h5
              have := evCmp_swap k e
              omega
            · have : j = lo + (hi - 1 - lo) / 2 := by omega
              subst this
              rw [hx] at hj
              cases hj
              omega
    · have : lo = hi := by omega
      subst this
      exact ih lo lo (by omega) (by omega) h2 h3 h4

theorem evCmp_id_lt {a b : Event} (h : a.id < b.id) : evCmp a b < 0 := by
  unfold evCmp keyCmp Event.pair
  dsimp only
  rw [if_pos h]; decide

theorem evCmp_id_le {a b : Event} (h : evCmp a b ≤ 0) : a.id ≤ b.id := by
  rcases Nat.lt_or_ge b.id a.id with h' | h'
  · have := evCmp_id_lt h'
    have := evCmp_swap a b
    omega
  · exact h'

theorem index_open_fields {i : Index} {data : Bytes} {key : Option Nat} {it : IndexIterator}
    (h : IndexIterator.open_ i data key = .ok it) : it.index = i ∧ it.data = data := by
  unfold IndexIterator.open_ at h
  by_cases h0 : i.regions = 0
  · rw [if_pos h0] at h; cases h; exact ⟨rfl, rfl⟩
  · rw [if_neg h0] at h
    cases key with
    | none =>
      obtain ⟨r, _, h⟩ := Res.bind_eq_ok.1 h
      cases h; exact ⟨rfl, rfl⟩
    | some id =>
      obtain ⟨pos, _, h⟩ := Res.bind_eq_ok.1 h
      obtain ⟨r, _, h⟩ := Res.bind_eq_ok.1 h
      obtain ⟨d, _, h⟩ := Res.bind_eq_ok.1 h
      dsimp only at h
      generalize (if wrapS32 d < 0 then pos + 1 else pos) = q at h
      by_cases h1 : i.regions ≤ q
      · rw [if_pos h1] at h; cases h; exact ⟨rfl, rfl⟩
      · rw [if_neg h1] at h
        obtain ⟨r, _, h⟩ := Res.bind_eq_ok.1 h
        cases h; exact ⟨rfl, rfl⟩

/-- Opening at a key: the events of the file at or after it, unless the key lies
between the last event of an id and a later one. -/
theorem seek_ok {cs : Codecs} {mc : MemCmp} {p : PartFile} {rs : List (List Event)} (hrep : Rep cs p rs)
    (hsep : rs.Pairwise fun r r' => ∀ x ∈ r, ∀ y ∈ r', x.id < y.id) (ha : Spec.Ascending rs.flatten)
    {base : Nat} (hw : ∀ e ∈ rs.flatten, Within base e) (hlt : ∀ e ∈ rs.flatten, e.id < 9223372036854775808)
    {k : Event} (hk : Within base k) (hkid : k.id < 9223372036854775808) (ht : C12.NoTail rs.flatten k) :
    ∃ it b, PartIterator.open_ cs mc p (some k) = .ok (it, b) ∧
      Yields PartIterator.at_ (PartIterator.next cs mc) it (atOrAfter k rs.flatten) := by
  -- the index entries
  obtain ⟨l, hl1, hl2⟩ := exists_list (P := fun i (ir : IndexRegion) => ∃ r rg, rs[i]? = some r ∧
      p.index.get p.index_data i = .ok ir ∧ (∃ e, r.head? = some e ∧ ir.min = e.id) ∧
      (∃ e, r.getLast? = some e ∧ ir.max = e.id) ∧ reader_execute cs p ir = .ok rg ∧ rg.events = r.length ∧
      ∀ (j : Nat) (e : Event), r[j]? = some e → rg.get j = .ok e) rs.length (by
    intro i hi
    obtain ⟨_, ir, rg, g1, g2, g3, _, g5, g6, g7⟩ := hrep.region i rs[i] (List.getElem?_eq_getElem hi)
    exact ⟨ir, rs[i], rg, List.getElem?_eq_getElem hi, g1, g2, g3, g5, g6, g7⟩)
  have hreg : ∀ {i : Nat} {r : List Event}, rs[i]? = some r → Spec.Ascending r ∧ (∀ e ∈ r, e ∈ rs.flatten) := by
    intro i r hr
    have hmem := List.mem_of_getElem? hr
    refine ⟨?_, fun e he => List.mem_flatten.2 ⟨r, hmem, he⟩⟩
    exact (List.pairwise_flatten.1 ha).1 r hmem
  have hminmax : ∀ {i : Nat} {ir : IndexRegion} {r : List Event}, l[i]? = some ir → rs[i]? = some r →
      (∃ e ∈ r, ir.min = e.id) ∧ (∃ e ∈ r, ir.max = e.id) ∧ ∀ e ∈ r, ir.min ≤ e.id ∧ e.id ≤ ir.max := by
    intro i ir r h1 h2
    obtain ⟨r', _, g1, _, ⟨f, g2, g2'⟩, ⟨t, g3, g3'⟩, _⟩ := hl2 i ir h1
    rw [h2] at g1; cases g1
    have hasc := (hreg h2).1
    refine ⟨⟨f, List.mem_of_mem_head? g2, g2'⟩, ⟨t, List.mem_of_getLast? g3, g3'⟩, fun e he => ⟨?_, ?_⟩⟩
    · cases r with
      | nil => cases g2
      | cons x r =>
        cases g2
        rcases List.mem_cons.1 he with rfl | he
        · omega
        · have := evCmp_id_le (Int.le_of_lt ((List.pairwise_cons.1 hasc).1 e he))
          omega
    · obtain ⟨r', hr'⟩ : ∃ r', r = r' ++ [t] := by
        rcases List.eq_nil_or_concat r with rfl | ⟨r', y, rfl⟩
        · cases g3
        · rw [List.concat_eq_append] at g3 ⊢
          simp at g3
          exact ⟨r', by rw [g3]⟩
      rw [hr'] at he hasc
      rcases List.mem_append.1 he with he | he
      · have := evCmp_id_le (Int.le_of_lt ((List.pairwise_append.1 hasc).2.2 e he t (by simp)))
        omega
      · simp at he; subst he; omega
  have hent : C17.Entries p.index p.index_data l := by
    refine ⟨by rw [hrep.regions, hl1], fun i ir h => ?_⟩
    obtain ⟨_, _, _, g, _⟩ := hl2 i ir h
    exact g
  have hrsof : ∀ {i : Nat} {ir : IndexRegion}, l[i]? = some ir → ∃ r, rs[i]? = some r := by
    intro i ir h
    obtain ⟨r, _, g, _⟩ := hl2 i ir h
    exact ⟨r, g⟩
  have hmax : ∀ ir ∈ l, ∃ e ∈ rs.flatten, ir.max = e.id := by
    intro ir hir
    obtain ⟨i, hi⟩ := List.mem_iff_getElem?.1 hir
    obtain ⟨r, hr⟩ := hrsof hi
    obtain ⟨_, ⟨e, he, h⟩, _⟩ := hminmax hi hr
    exact ⟨e, (hreg hr).2 e he, h⟩
  have hasc : C17.Ascending l := by
    refine ⟨fun ir hir => ?_, ?_⟩
    · obtain ⟨i, hi⟩ := List.mem_iff_getElem?.1 hir
      obtain ⟨r, hr⟩ := hrsof hi
      obtain ⟨⟨e, he, h⟩, ⟨f, hf, h'⟩, h3⟩ := hminmax hi hr
      have := (h3 e he).2
      have := hlt f ((hreg hr).2 f hf)
      omega
    · rw [List.pairwise_iff_getElem]
      intro i j hi hj hij
      obtain ⟨r, hr⟩ := hrsof (List.getElem?_eq_getElem hi)
      obtain ⟨r', hr'⟩ := hrsof (List.getElem?_eq_getElem hj)
      obtain ⟨_, ⟨f, hf, h⟩, _⟩ := hminmax (List.getElem?_eq_getElem hi) hr
      obtain ⟨⟨e, he, h'⟩, _⟩ := hminmax (List.getElem?_eq_getElem hj) hr'
      obtain ⟨hi', rfl⟩ := List.getElem?_eq_some_iff.1 hr
      obtain ⟨hj', rfl⟩ := List.getElem?_eq_some_iff.1 hr'
      have := List.pairwise_iff_getElem.1 hsep i j hi' hj' hij f hf e he
      omega
  obtain ⟨ii, hop, hcur, hpos⟩ := C17.open_ok hent hasc (id := k.id) (by omega)
    (.inl ⟨hkid, fun ir hir => by obtain ⟨e, he, h⟩ := hmax ir hir; have := hlt e he; omega⟩)
    ⟨fun ir hir => by
      obtain ⟨e, he, h⟩ := hmax ir (List.mem_of_find?_eq_some hir)
      have := hw e he
      unfold Within at this hk
      omega, fun ir hir => by
      obtain ⟨e, he, h⟩ := hmax ir (List.mem_of_getLast? hir)
      have := hw e he
      unfold Within at this hk
      omega⟩
  -- the events of the regions before the position are below the key
  have hbefore : ∀ {i : Nat} {r : List Event}, rs[i]? = some r → i < ii.pos → ∀ e ∈ r, evCmp e k < 0 := by
    intro i r hr hi e he
    have hil : i < l.length := by rw [hl1]; exact (List.getElem?_eq_some_iff.1 hr).1
    have h1 := (hpos i _ (List.getElem?_eq_getElem hil)).1 hi
    have h2 := (hminmax (List.getElem?_eq_getElem hil) hr).2.2 e he
    exact evCmp_id_lt (by omega)
  have htake : ∀ e ∈ (rs.take ii.pos).flatten, evCmp e k < 0 := by
    intro e he
    obtain ⟨r, hr, her⟩ := List.mem_flatten.1 he
    obtain ⟨i, hi⟩ := List.mem_iff_getElem?.1 hr
    have h1 := (List.getElem?_eq_some_iff.1 hi).1
    rw [List.length_take] at h1
    rw [List.getElem?_take_of_lt (by omega)] at hi
    exact hbefore hi (by omega) e her
  unfold PartIterator.open_
  simp only [Option.map_some]
  rw [hop, Res.bind_ok]
  cases hc : l[ii.pos]? with
  | none =>
    rw [hcur, hc]
    refine ⟨_, _, rfl, ?_⟩
    rw [List.getElem?_eq_none_iff, hl1] at hc
    rw [List.take_of_length_le hc] at htake
    have : atOrAfter k rs.flatten = [] := by
      unfold atOrAfter
      rw [List.filter_eq_nil_iff]
      intro e he
      have := htake e he
      simp; omega
    rw [this]
    exact .done rfl
  | some ir =>
    rw [hcur, hc]
    dsimp only
    obtain ⟨r, rg, g1, g2, _, _, g5, g6, g7⟩ := hl2 _ _ hc
    rw [g5, Res.bind_ok]
    obtain ⟨rasc, rmem⟩ := hreg g1
    have hne : r ≠ [] := (hrep.region _ _ g1).1
    have hlen : 0 < r.length := List.length_pos_iff.2 hne
    obtain ⟨j, hit, s1, s2, s3, s4⟩ := rsearch_ok (mc := mc) g7 rasc (fun e he => hw e (rmem e he)) hk r.length 0
      rg.events (by omega) (by omega) (by omega) (by intro j e _ h; omega) (by
        intro j e h h'
        have := (List.getElem?_eq_some_iff.1 h).1
        omega)
    have hplen := (List.getElem?_eq_some_iff.1 g1).1
    have hafter : ∀ e ∈ (rs.drop (ii.pos + 1)).flatten, 0 ≤ evCmp e k := by
      intro e he
      obtain ⟨r', hr', her⟩ := List.mem_flatten.1 he
      obtain ⟨i, hi⟩ := List.mem_iff_getElem?.1 hr'
      rw [List.getElem?_drop] at hi
      obtain ⟨_, ⟨f, hf, hf'⟩, _⟩ := hminmax hc g1
      obtain ⟨hi1, rfl⟩ := List.getElem?_eq_some_iff.1 hi
      obtain ⟨hi2, rfl⟩ := List.getElem?_eq_some_iff.1 g1
      have h1 := List.pairwise_iff_getElem.1 hsep ii.pos (ii.pos + 1 + i) hi2 hi1 (by omega) f hf e her
      have h2 := (hpos ii.pos ir hc)
      have h3 : evCmp k e < 0 := evCmp_id_lt (by omega)
      have := evCmp_swap e k
      omega
    have hfl : rs.flatten = ((rs.take ii.pos).flatten ++ r.take j) ++ (r.drop j ++ (rs.drop (ii.pos + 1)).flatten) := by
      conv => lhs; rw [← List.take_append_drop ii.pos rs, List.flatten_append, List.drop_eq_getElem_cons hplen,
        (List.getElem?_eq_some_iff.1 g1).2, List.flatten_cons]
      conv => lhs; rw [← List.take_append_drop j r]
      simp only [List.append_assoc]
    have hat : atOrAfter k rs.flatten = r.drop j ++ (rs.drop (ii.pos + 1)).flatten := by
      unfold atOrAfter
      rw [hfl, List.filter_append, filter_none (l := (rs.take ii.pos).flatten ++ r.take j) (by
        intro e he
        rcases List.mem_append.1 he with he | he
        · have := htake e he; simp; omega
        · obtain ⟨i, hi⟩ := List.mem_iff_getElem?.1 he
          have h1 := (List.getElem?_eq_some_iff.1 hi).1
          rw [List.length_take] at h1
          rw [List.getElem?_take_of_lt (by omega)] at hi
          have := s3 i e hi (by omega)
          simp; omega), filter_all (by
        intro e he
        rcases List.mem_append.1 he with he | he
        · obtain ⟨i, hi⟩ := List.mem_iff_getElem?.1 he
          rw [List.getElem?_drop] at hi
          have := s4 _ e hi (by omega)
          simpa using this
        · have := hafter e he
          simpa using this)]
      rfl
    have hopen : RegionIterator.open_ mc rg (some k) =
        (RegionIterator.set_pos rg j).bind fun it => .ok (it, hit) := by
      unfold RegionIterator.open_
      rw [if_neg (by omega)]
      dsimp only
      rw [s1, Res.bind_ok]
    rw [hopen]
    obtain ⟨hi1, hi2⟩ := index_open_fields hop
    have hii : ii = ⟨p.index, p.index_data, some ir, ii.pos⟩ := by
      obtain ⟨a, b, c, d⟩ := ii
      dsimp only at hi1 hi2 hcur hc
      rw [hcur, hc, hi1, hi2]
    rcases Nat.lt_or_ge j r.length with hj | hj
    · have hx := List.getElem?_eq_getElem hj
      rw [set_pos_ok (by omega) (g7 j _ hx), Res.bind_ok, Res.bind_ok]
      refine ⟨_, _, rfl, ?_⟩
      rw [hat]
      exact yields_at (mc := mc) hrep (rs.length - ii.pos) (r.length - j) _ ii.pos j r
        ⟨rfl, ⟨ir, hii⟩, r, rg, r[j], g1, hx, g6, g7, rfl⟩ g1 (by omega) (by omega)
    · rw [set_pos_end (by omega), Res.bind_ok, Res.bind_ok]
      refine ⟨_, _, rfl, ?_⟩
      -- all events of the region are below the key, so it ends with the id of the key
      have hall : ∀ e ∈ r, evCmp e k < 0 := by
        intro e he
        obtain ⟨i, hi⟩ := List.mem_iff_getElem?.1 he
        have := (List.getElem?_eq_some_iff.1 hi).1
        exact s3 i e hi (by omega)
      obtain ⟨_, ⟨f, hf, hf'⟩, _⟩ := hminmax hc g1
      have h2 := hpos ii.pos ir hc
      have h3 := evCmp_id_le (Int.le_of_lt (hall f hf))
      have hfk : f.id = k.id := by omega
      have hnil : atOrAfter k rs.flatten = [] := by
        rcases ht ⟨f, rmem f hf, hfk⟩ with ⟨e, he, heid, hek⟩ | hlow
        · exfalso
          obtain ⟨r', hr', her⟩ := List.mem_flatten.1 he
          obtain ⟨i, hi⟩ := List.mem_iff_getElem?.1 hr'
          have hipos : i = ii.pos := by
            obtain ⟨q1, rfl⟩ := List.getElem?_eq_some_iff.1 hi
            obtain ⟨q2, rfl⟩ := List.getElem?_eq_some_iff.1 g1
            rcases Nat.lt_trichotomy i ii.pos with h | h | h
            · have := List.pairwise_iff_getElem.1 hsep i ii.pos q1 q2 h e her f hf; omega
            · exact h
            · have := List.pairwise_iff_getElem.1 hsep ii.pos i q2 q1 h f hf e her; omega
          subst hipos
          rw [g1] at hi
          cases hi
          have := hall e her
          have := evCmp_swap k e
          omega
        · unfold atOrAfter
          rw [List.filter_eq_nil_iff]
          intro e he
          have := hlow e he
          simp; omega
      rw [hnil]
      exact .done rfl

end Verif.Io
