import Verif.Spec.C17
import Verif.Proofs.Key

namespace Verif.C17

open Verif.Io

theorem cmp_ok {a b : Nat} (h : (a < 9223372036854775808 ∧ b < 9223372036854775808) ∨
      (9223372036854775808 ≤ a ∧ a < 18446744073709551616 ∧ 9223372036854775808 ≤ b ∧ b < 18446744073709551616)) :
    compareU64 a b = .ok ((a : Int) - b) := by
  have lo : ∀ x : Nat, x < 9223372036854775808 → toS64 x = x := by
    intro x hx; unfold toS64; exact wrapS64_id (by omega) (by omega)
  have hi : ∀ x : Nat, 9223372036854775808 ≤ x → x < 18446744073709551616 → toS64 x = x - 18446744073709551616 := by
    intro x hx hx'
    unfold toS64 wrapS64
    have : (x : Int) + 9223372036854775808 = ((x : Int) - 9223372036854775808) + 18446744073709551616 := by omega
    rw [this, Int.add_emod_right, Int.emod_eq_of_lt (by omega) (by omega)]
    omega
  rcases h with ⟨h1, h2⟩ | ⟨h1, h2, h3, h4⟩
  · exact compareU64_ok h1 h2
  · unfold compareU64
    rw [hi a h1 h2, hi b h3 h4]
    dsimp only
    have e : (a : Int) - 18446744073709551616 - ((b : Int) - 18446744073709551616) = (a : Int) - b := by omega
    rw [e, if_pos (by omega)]

theorem ascending_max {l : List IndexRegion} (h : Ascending l) {j k : Nat} {a b : IndexRegion} (ha : l[j]? = some a)
    (hb : l[k]? = some b) (hjk : j < k) : a.max < b.max := by
  obtain ⟨h1, h2⟩ := h
  obtain ⟨hj, rfl⟩ := List.getElem?_eq_some_iff.1 ha
  obtain ⟨hk, rfl⟩ := List.getElem?_eq_some_iff.1 hb
  have := List.pairwise_iff_getElem.1 h2 j k hj hk hjk
  have := (h1 l[k] (List.getElem_mem hk)).1
  omega

theorem search_done {i : Index} {data : Bytes} {id lo hi : Nat} (h : ¬ lo < hi) :
    IndexIterator.search i data id lo hi = .ok hi := by
  rw [IndexIterator.search]; exact if_neg h

theorem search_step {i : Index} {data : Bytes} {id lo hi : Nat} {r : IndexRegion} {d : Int} (h : lo < hi)
    (hg : i.get data (lo + (hi - lo) / 2) = .ok r) (hc : compareU64 r.max id = .ok d) :
    IndexIterator.search i data id lo hi =
      if d < 0 then IndexIterator.search i data id (lo + (hi - lo) / 2 + 1) hi
      else IndexIterator.search i data id lo (lo + (hi - lo) / 2) := by
  rw [IndexIterator.search]
  refine (if_pos h).trans ?_
  dsimp only
  rw [hg, Res.bind_ok, hc, Res.bind_ok]

theorem half_ok {l : List IndexRegion} {id : Nat} {r : IndexRegion} (ha : Ascending l)
    (hid : id < 18446744073709551616) (hs : SameHalf l id) (hm : r ∈ l) :
    compareU64 r.max id = .ok ((r.max : Int) - id) := by
  apply cmp_ok
  rcases hs with ⟨s1, s2⟩ | ⟨s1, s2⟩
  · exact .inl ⟨s2 _ hm, s1⟩
  · exact .inr ⟨s2 _ hm, (ha.1 _ hm).2, s1, hid⟩

theorem search_ok {i : Index} {data : Bytes} {l : List IndexRegion} {id : Nat} (he : Entries i data l)
    (ha : Ascending l) (hid : id < 18446744073709551616) (hs : SameHalf l id) (n : Nat) : ∀ lo hi : Nat, hi - lo ≤ n →
    lo ≤ hi → hi < l.length → (∀ j r, l[j]? = some r → j < lo → r.max < id) →
    (∀ r, l[hi]? = some r → hi + 1 < l.length → id ≤ r.max) →
    ∃ pos, IndexIterator.search i data id lo hi = .ok pos ∧ pos < l.length ∧
      (∀ j r, l[j]? = some r → j < pos → r.max < id) ∧
      (∀ r, l[pos]? = some r → pos + 1 < l.length → id ≤ r.max) := by
  induction n with
  | zero =>
    intro lo hi h0 h1 h2 h3 h4
    have : lo = hi := by omega
    subst this
    exact ⟨lo, search_done (Nat.lt_irrefl _), h2, h3, h4⟩
  | succ n ih =>
    intro lo hi h0 h1 h2 h3 h4
    by_cases hlt : lo < hi
    · have hmid : lo + (hi - lo) / 2 < hi := by omega
      have hml : lo + (hi - lo) / 2 < l.length := by omega
      have hlm : lo ≤ lo + (hi - lo) / 2 := Nat.le_add_right _ _
      have hg := List.getElem?_eq_getElem hml
      have hst := search_step hlt (he.2 _ _ hg) (half_ok ha hid hs (List.getElem_mem hml))
      rw [hst]
      clear hst
      have d1 : hi - (lo + (hi - lo) / 2 + 1) ≤ n := by omega
      have d2 : lo + (hi - lo) / 2 - lo ≤ n := by omega
      generalize hm : lo + (hi - lo) / 2 = mid at *
      generalize hr : l[mid] = r at *
      by_cases hd : r.max < id
      · rw [if_pos (by omega)]
        refine ih (mid + 1) hi d1 hmid h2 ?_ h4
        intro j r' hj hjm
        by_cases hjm' : j = mid
        · subst hjm'; rw [hg] at hj; have := Option.some.inj hj; subst this; exact hd
        · have := ascending_max ha hj hg (by omega); omega
      · rw [if_neg (by omega)]
        refine ih lo mid d2 hlm hml h3 ?_
        intro r' hr' _
        rw [hg] at hr'; have := Option.some.inj hr'; subst this; exact Nat.not_lt.1 hd
    · have : lo = hi := by omega
      subst this
      exact ⟨lo, search_done hlt, h2, h3, h4⟩

theorem wrapS32_sign {d : Int} (h : -2147483648 ≤ d) (h' : d < 0) : wrapS32 d < 0 := by
  unfold wrapS32; omega

theorem wrapS32_nonneg {d : Int} (h : 0 ≤ d) (h' : d < 2147483648) : ¬ wrapS32 d < 0 := by
  unfold wrapS32; omega

attribute [local irreducible] wrapS32 compareU64 Index.get

theorem open_step {i : Index} {data : Bytes} {id pos : Nat} {r : IndexRegion} {d : Int} (h0 : i.regions ≠ 0)
    (h1 : IndexIterator.search i data id 0 (i.regions - 1) = .ok pos) (h2 : i.get data pos = .ok r)
    (h3 : compareU64 r.max id = .ok d) :
    IndexIterator.open_ i data (some id) =
      (let pos := if wrapS32 d < 0 then pos + 1 else pos
      if i.regions ≤ pos then .ok ⟨i, data, none, pos⟩
      else (i.get data pos).bind fun r => .ok ⟨i, data, some r, pos⟩) := by
  unfold IndexIterator.open_
  rw [if_neg h0]
  dsimp only
  rw [h1, Res.bind_ok, h2, Res.bind_ok, h3, Res.bind_ok]

theorem open_ok {i : Index} {data : Bytes} {l : List IndexRegion} {id : Nat} (he : Entries i data l)
    (ha : Ascending l) (hid : id < 18446744073709551616) (hs : SameHalf l id)
    (hf : Near l id) :
    ∃ it, IndexIterator.open_ i data (some id) = .ok it ∧ Right l id it := by
  by_cases h0 : i.regions = 0
  · have : l = [] := List.eq_nil_of_length_eq_zero (by rw [← he.1]; exact h0)
    subst this
    exact ⟨_, if_pos h0, rfl, by simp⟩
  · have hl : 0 < l.length := by rw [← he.1]; omega
    obtain ⟨pos, h1, h2, h3, h4⟩ := search_ok he ha hid hs (i.regions - 1) 0 (i.regions - 1) (by omega) (by omega)
      (by rw [he.1]; omega) (by intro j r _ h; omega) (by intro r _ h; rw [he.1] at h; omega)
    have hg := List.getElem?_eq_getElem h2
    have hmem := List.getElem_mem h2
    rw [open_step h0 h1 (he.2 pos _ hg) (half_ok ha hid hs hmem)]
    dsimp only
    by_cases hd : l[pos].max < id
    · -- all regions are below the id
      have hlast : pos + 1 = l.length := by
        by_cases h : pos + 1 < l.length
        · have := h4 _ hg h; omega
        · omega
      have hgl : l.getLast? = some l[pos] := by
        rw [List.getLast?_eq_getElem?, ← hlast, Nat.add_sub_cancel]; exact hg
      have := hf.2 l[pos] (by rw [hgl]; rfl)
      rw [if_pos (wrapS32_sign (by omega) (by omega)), if_pos (by rw [he.1]; omega)]
      refine ⟨_, rfl, ?_, ?_⟩
      · show none = l[pos + 1]?
        rw [List.getElem?_eq_none (by omega)]
      · intro j r hj
        show j < pos + 1 ↔ _
        have hjl := (List.getElem?_eq_some_iff.1 hj).1
        refine ⟨fun _ => ?_, fun _ => by omega⟩
        by_cases hjp : j = pos
        · subst hjp; rw [hg] at hj; have := Option.some.inj hj; subst this; exact hd
        · exact h3 j r hj (by omega)
    · have hfind : l.find? (fun r => decide (id ≤ r.max)) = some l[pos] := by
        rw [List.find?_eq_some_iff_getElem]
        refine ⟨by simpa using hd, pos, h2, rfl, fun j hj => ?_⟩
        have := h3 j _ (List.getElem?_eq_getElem (by omega)) hj
        simpa using this
      have := hf.1 l[pos] (by rw [hfind]; rfl)
      have hw : ¬ wrapS32 ((l[pos].max : Int) - id) < 0 := wrapS32_nonneg (by omega) (by omega)
      rw [if_neg hw, if_neg (by rw [he.1]; omega), he.2 pos _ hg]
      refine ⟨_, rfl, hg.symm, ?_⟩
      intro j r hj
      show j < pos ↔ _
      refine ⟨fun h => h3 j r hj h, fun h => ?_⟩
      by_cases hjp : j < pos
      · exact hjp
      · by_cases hje : j = pos
        · subst hje; rw [hg] at hj; have := Option.some.inj hj; subst this; omega
        · have := ascending_max ha hg hj (by omega); omega

end Verif.C17
