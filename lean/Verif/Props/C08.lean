import Verif.Props.C07
import Verif.Spec.C08

/-! C08: an in-memory seek positions at the first key at or after the request. -/
namespace Verif.C08
open Spec Memtable Rb C07

theorem lookup_isSome {L : List Event} (k : Event) :
    (lookup k L).isSome = decide (∃ a ∈ L, a.pair = k.pair) := by
  cases h : lookup k L with
  | none =>
    simp only [lookup, List.find?_eq_none] at h
    have : ¬ ∃ a ∈ L, a.pair = k.pair := by
      rintro ⟨a, ha, hk⟩
      exact h a ha (by simpa using evCmp_eq.2 hk)
    simp [this]
  | some y =>
    obtain ⟨h1, h2⟩ := lookup_some_mem h
    have : ∃ a ∈ L, a.pair = k.pair := ⟨y, h1, evCmp_eq.1 h2⟩
    simp [this]

/-- Partial: the property for tame write sequences (see C07) and a requested key
in a table of one page or among the last `sizePage - sizeSplit` keys.  Missing:
requests further back in a table of several pages, for which it fails. -/
theorem C08_seek_partial (mc : MemCmp) (sp ss : Nat) (h1 : 0 < ss) (h2 : ss < sp)
    (base : Nat) (es : List Event) (hw : ∀ e ∈ es, Within base e) (ht : Tame sp ss es)
    (k : Event) (hk : Within base k)
    (hkt : (table es).length ≤ sp ∨
      ((table es).filter (fun a => evCmp a k > 0)).length < sp - ss) :
    ∃ m prevs, run mc (Memtable.init sp ss) es = .ok (m, prevs) ∧
      Memtable.scan mc m none = .ok (table es) ∧ Seeks mc m (table es) k := by
  obtain ⟨m, ps, hr, hreach, hlen, hps⟩ := run_tame mc h1 h2 base es hw ht
  obtain ⟨h3, it, h4, h5⟩ := seek_last mc hreach.inv hk (hreach.routed hkt)
  refine ⟨m, ps, hr, scan_all mc hreach.inv, h3, it, ?_, h5⟩
  rw [h4, lookup_isSome]

/-- The table of the even ids 0..1024. -/
def evenTable : Memtable :=
  { Memtable.init 512 508 with
    tree := .node .black .nil ⟨0, evens 508⟩
      (.node .red .nil ⟨1, [ev 1016, ev 1018, ev 1020, ev 1022, ev 1024]⟩ .nil),
    countPages := 2, count := 513, nextPid := 2 }

theorem scan_even : Memtable.scan memCmpStd evenTable none =
    .ok (evens 508 ++ [ev 1016, ev 1018, ev 1020, ev 1022, ev 1024]) := by
  decide +kernel

/-- Appending the even ids 0..1024 and seeking id 4 starts at 1016. -/
theorem C08_seek_skips :
    (∃ ps, run memCmpStd (Memtable.init 512 508) (evens 512 ++ [ev 1024]) = .ok (evenTable, ps)) ∧
    Memtable.scan memCmpStd evenTable (some (ev 4)) =
      .ok [ev 1016, ev 1018, ev 1020, ev 1022, ev 1024] := by
  constructor
  · obtain ⟨ps, hr⟩ := run_evens memCmpStd 512 (by omega) (by omega)
    refine ⟨ps ++ [none], ?_⟩
    rw [run_snoc, hr]
    simp only [Res.bind_ok, set_1024]
    rfl
  · decide +kernel

/-- A seek to an absent key just behind the first page (id 1015, where the
search does step back to the first page) ends at once although the second page
holds greater keys. -/
theorem C08_seek_page_end :
    Memtable.scan memCmpStd evenTable (some (ev 1015)) = .ok [] := by
  decide +kernel

/-- The property is false of the code. -/
theorem C08_seek_false : ¬ Full 512 508 := by
  intro h
  obtain ⟨⟨ps, hr⟩, hs⟩ := C08_seek_skips
  have := h memCmpStd 0 (evens 512 ++ [ev 1024]) (ev 4) (by
    intro e he
    simp only [List.mem_append] at he
    rcases he with he | he
    · exact evens_within 512 (by omega) e he
    · simp at he; subst he; simp [Within, ev]) (by simp [Within, ev]) _ _ hr _ scan_even (by
    refine List.pairwise_append.2 ⟨?_, ?_, ?_⟩
    · simp only [evens, List.pairwise_map]
      refine List.Pairwise.imp ?_ List.pairwise_lt_range
      intro a b hab
      have hk : evCmp (ev (2 * a)) (ev (2 * b)) =
        if 2 * a < 2 * b then -1 else if 2 * b < 2 * a then 1 else lexCmp [] [] := rfl
      rw [hk, if_pos (by omega)]; omega
    · decide
    · intro a ha b hb
      have h1 := evens_lt 508 a ha
      simp at hb
      rcases hb with rfl | hb
      · exact h1
      · refine evCmp_trans h1 ?_
        rcases hb with rfl | rfl | rfl | rfl <;> decide)
  obtain ⟨h1, _⟩ := this
  rw [hs] at h1
  have h2 := Res.ok.inj h1
  have : ev 4 ∈ [ev 1016, ev 1018, ev 1020, ev 1022, ev 1024] := by
    rw [h2]
    simp only [atOrAfter, List.mem_filter, List.mem_append]
    refine ⟨.inl ?_, by decide⟩
    simp only [evens, List.mem_map, List.mem_range]
    exact ⟨2, by omega, rfl⟩
  simp [ev] at this

/-- The hypotheses of the partial theorem: a table of several pages (six keys, four
to a page) and a request for a key among the last ones; and a table of one page
with a request anywhere. -/
example : (∀ e ∈ [ev 7, ev 5, ev 3, ev 5, ev 8, ev 9, ev 10], Within 0 e) ∧ Within 0 (ev 9) ∧
    Tame 4 2 [ev 7, ev 5, ev 3, ev 5, ev 8, ev 9, ev 10] ∧
    4 < (table [ev 7, ev 5, ev 3, ev 5, ev 8, ev 9, ev 10]).length ∧
    ((table [ev 7, ev 5, ev 3, ev 5, ev 8, ev 9, ev 10]).filter
      (fun a => evCmp a (ev 9) > 0)).length < 4 - 2 := by
  refine ⟨?_, by simp [Within, ev], ?_, by decide, by decide⟩
  · intro e he
    simp only [List.mem_cons, List.not_mem_nil, or_false] at he
    rcases he with rfl | rfl | rfl | rfl | rfl | rfl | rfl <;> simp [Within, ev]
  · intro pre e post h
    have hl := congrArg List.length h
    simp at hl
    have : pre = [ev 7, ev 5, ev 3, ev 5, ev 8, ev 9, ev 10].take pre.length := by rw [h]; simp
    have he : [ev 7, ev 5, ev 3, ev 5, ev 8, ev 9, ev 10][pre.length]? = some e := by rw [h]; simp
    generalize pre.length = n at *
    subst this
    match n, he with
    | 0, he => cases he; decide
    | 1, he => cases he; decide
    | 2, he => cases he; decide
    | 3, he => cases he; decide
    | 4, he => cases he; decide
    | 5, he => cases he; decide
    | 6, he => cases he; decide
    | n + 7, _ => omega

/-- A seek between the keys of a table of one page. -/
example : (table [ev 7, ev 3, ev 5]).length ≤ 4 ∧
    (∃ a ∈ table [ev 7, ev 3, ev 5], evCmp a (ev 4) < 0) ∧
    (∃ a ∈ table [ev 7, ev 3, ev 5], 0 < evCmp a (ev 4)) := by decide

end Verif.C08
