import Verif.Proofs.C07

/-! C07: the in-memory table behaves as a sorted map. -/
namespace Verif.C07
open Spec Memtable Rb

/-- Partial: the property for write sequences in which every write goes to a
table that fits one page or lands among the last `sizePage - sizeSplit` keys.
Missing: writes further back in a table of several pages, for which it fails
(see below). -/
theorem C07_sorted_map_partial (mc : MemCmp) (sp ss : Nat) (h1 : 0 < ss) (h2 : ss < sp)
    (base : Nat) (es : List Event) (hw : ∀ e ∈ es, Within base e) (ht : Tame sp ss es) :
    ∃ m prevs, run mc (Memtable.init sp ss) es = .ok (m, prevs) ∧ Correct mc es m prevs := by
  obtain ⟨m, ps, hr, hreach, hlen, hps⟩ := run_tame mc h1 h2 base es hw ht
  refine ⟨m, ps, hr, hps, hlen, table es, ?_, table_ascending es, fun e => mem_table e es⟩
  exact scan_all mc hreach.inv

/-- An event without key and value. -/
def ev (n : Nat) : Event := ⟨n, 0, [], []⟩

/-- The even numbers below `2 * n`, ascending. -/
def evens (n : Nat) : List Event := (List.range n).map (fun i => ev (2 * i))

theorem evens_succ (n : Nat) : evens (n + 1) = evens n ++ [ev (2 * n)] := by
  simp [evens, List.range_succ]

theorem evens_within (n : Nat) (h : n ≤ 1000) : ∀ a ∈ evens n, Within 0 a := by
  intro a ha
  simp only [evens, List.mem_map, List.mem_range] at ha
  obtain ⟨i, hi, rfl⟩ := ha
  simp [Within, ev]; omega

theorem evens_lt (n : Nat) : ∀ a ∈ evens n, evCmp a (ev (2 * n)) < 0 := by
  intro a ha
  simp only [evens, List.mem_map, List.mem_range] at ha
  obtain ⟨i, hi, rfl⟩ := ha
  have hk : evCmp (ev (2 * i)) (ev (2 * n)) =
      if 2 * i < 2 * n then -1 else if 2 * n < 2 * i then 1 else lexCmp [] [] := rfl
  rw [hk, if_pos (by omega)]
  omega

/-- A first page of `n` even ids. -/
def page1 (n : Nat) : Memtable :=
  { Memtable.init 512 508 with
    tree := .node .black .nil ⟨0, evens n⟩ .nil, countPages := 1, count := n, nextPid := 1 }

theorem run_evens (mc : MemCmp) (n : Nat) (h0 : 0 < n) (h : n ≤ 512) :
    ∃ ps, run mc (Memtable.init 512 508) (evens n) = .ok (page1 n, ps) := by
  induction n with
  | zero => omega
  | succ n ih =>
    by_cases hn : n = 0
    · subst hn
      exact ⟨[none], rfl⟩
    · obtain ⟨ps, hr⟩ := ih (by omega) (by omega)
      refine ⟨ps ++ [none], ?_⟩
      rw [evens_succ, run_snoc, hr]
      simp only [Res.bind_ok]
      rw [set_append_single mc (base := 0) (page1 n) (evens n) (ev (2 * n)) _ _ rfl rfl (pid := 0) rfl
        (evens_within n (by omega)) _ (evens_lt n)]
      · rw [← evens_succ]; rfl
      · intro hc; have := congrArg List.length hc; simp [evens] at this; omega
      · simp [evens, page1, Memtable.init]; omega
      · simp [Within, ev]; omega

/-- Writes of the even ids 0..1024, then of 1005. -/
def badWrites : List Event := evens 512 ++ [ev 1024, ev 1005]

/-- The table after `badWrites`: 1005 is on the second page, before 1016. -/
def badTable : Memtable :=
  { Memtable.init 512 508 with
    tree := .node .black .nil ⟨0, evens 508⟩
      (.node .red .nil ⟨1, [ev 1005, ev 1016, ev 1018, ev 1020, ev 1022, ev 1024]⟩ .nil),
    countPages := 2, count := 514, nextPid := 2 }

theorem set_1024 : Memtable.set memCmpStd true (page1 512) (ev 1024) =
    .ok ({ Memtable.init 512 508 with
      tree := .node .black .nil ⟨0, evens 508⟩
        (.node .red .nil ⟨1, [ev 1016, ev 1018, ev 1020, ev 1022, ev 1024]⟩ .nil),
      countPages := 2, count := 513, nextPid := 2 }, none) := by
  decide +kernel

theorem set_1005 : Memtable.set memCmpStd true { Memtable.init 512 508 with
      tree := .node .black .nil ⟨0, evens 508⟩
        (.node .red .nil ⟨1, [ev 1016, ev 1018, ev 1020, ev 1022, ev 1024]⟩ .nil),
      countPages := 2, count := 513, nextPid := 2 } (ev 1005) = .ok (badTable, none) := by
  decide +kernel

theorem scan_bad : Memtable.scan memCmpStd badTable none =
    .ok (evens 508 ++ [ev 1005, ev 1016, ev 1018, ev 1020, ev 1022, ev 1024]) := by
  decide +kernel

/-- With the page sizes of the code (512/508, part.c), writing 1005 after the
even ids up to 1024 leaves 1005 behind 1014 in a scan. -/
theorem C07_write_out_of_order :
    ∃ ps, run memCmpStd (Memtable.init 512 508) badWrites = .ok (badTable, ps) := by
  obtain ⟨ps, hr⟩ := run_evens memCmpStd 512 (by omega) (by omega)
  refine ⟨ps ++ [none] ++ [none], ?_⟩
  have : badWrites = (evens 512 ++ [ev 1024]) ++ [ev 1005] := by simp [badWrites]
  rw [this, run_snoc, run_snoc, hr]
  simp only [Res.bind_ok, set_1024, set_1005]

/-- The property is false of the code. -/
theorem C07_sorted_map_false : ¬ Full 512 508 := by
  intro h
  obtain ⟨m, ps, hr, _, _, L, hs, ha, _⟩ := h memCmpStd 0 badWrites (by
    intro e he
    simp only [badWrites, List.mem_append] at he
    rcases he with he | he
    · exact evens_within 512 (by omega) e he
    · simp at he; rcases he with rfl | rfl <;> simp [Within, ev])
  obtain ⟨ps', hr'⟩ := C07_write_out_of_order
  have hm : m = badTable := by
    have := Res.ok.inj (hr'.symm.trans hr)
    exact (Prod.mk.inj this).1.symm
  rw [hm, scan_bad] at hs
  have hL := Res.ok.inj hs
  rw [← hL] at ha
  have h1 := (List.pairwise_append.1 ha).2.2 (ev 1014) (by
    simp only [evens, List.mem_map, List.mem_range]; exact ⟨507, by omega, rfl⟩) (ev 1005) (by simp)
  revert h1
  decide

/-- The table after updating id 4 in `badTable`. -/
def dupTable : Memtable :=
  { Memtable.init 512 508 with
    tree := .node .black .nil ⟨0, evens 508⟩
      (.node .red .nil
        ⟨1, [⟨4, 0, [], [7]⟩, ev 1005, ev 1016, ev 1018, ev 1020, ev 1022, ev 1024]⟩ .nil),
    countPages := 2, count := 515, nextPid := 2 }

/-- Updating an existing event of the first page adds a second version of it
(the previous version is not reported). -/
theorem C07_update_duplicates :
    ∃ m, Memtable.set memCmpStd true badTable ⟨4, 0, [], [7]⟩ = .ok (m, none) ∧
      Memtable.scan memCmpStd m none =
        .ok (evens 508 ++ [⟨4, 0, [], [7]⟩, ev 1005, ev 1016, ev 1018, ev 1020, ev 1022, ev 1024]) := by
  refine ⟨dupTable, ?_, ?_⟩ <;> decide +kernel

/-- The hypotheses of the partial theorem are met by descending writes on pages
of four, with an update and an append that splits. -/
example : Tame 4 2 [ev 7, ev 5, ev 3, ev 5, ev 8, ev 9, ev 10] := by
  intro pre e post h
  have hl := congrArg List.length h
  simp at hl
  have : pre = [ev 7, ev 5, ev 3, ev 5, ev 8, ev 9, ev 10].take pre.length := by rw [h]; simp
  have he : [ev 7, ev 5, ev 3, ev 5, ev 8, ev 9, ev 10][pre.length]? = some e := by rw [h]; simp
  generalize pre.length = n at *
  subst this
  match n, he with
  | 0, he => cases he; decide
  | 1, he => cases he; decide
  | 2, he => cases he; decide
  | 3, he => cases he; decide
  | 4, he => cases he; decide
  | 5, he => cases he; decide
  | 6, he => cases he; decide
  | n + 7, _ => omega

end Verif.C07
