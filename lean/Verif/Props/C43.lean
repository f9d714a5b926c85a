import Verif.Proofs.HeapRun

/-! C43: memory accounting is exact. -/
namespace Verif.C43
open Mem

/-- Partial: any number of tables and any sequence of requests, waits, releases,
moves and trims in which no mmap call fails.  The counts are exact, and the pages
of the tables stay below the limit plus one page.  Missing: the limit itself
(false, below), and failing mmap calls (false, below). -/
theorem C43_accounting_partial (n : Nat) (page_size : Int) (cache : Nat) (limit limit_error : Bool) (wm : Nat)
    (hs : Settings page_size wm) (es : List Ev) (hne : ∀ h size, .alloc h size none ∉ es) :
    ∃ w, run n (start (Mm.init page_size cache limit limit_error wm)) es = .ok w ∧ Exact n w ∧
      (limit = true → (w.mm.count - w.mm.freeCount) * (page_size - 16) < wm + (page_size - 16)) := by
  obtain ⟨w, free, own, h1, h2, h3, h4, h5, h6⟩ := reach (n := n) (cache := cache) (limit := limit) (limit_error := limit_error) hs es
  refine ⟨w, h1, exact_of h2 (h6 hne), ?_⟩
  intro hl
  have hct := h2.count
  have hb := h2.bd (by rw [h4]; exact hl) (by rw [h5]; exact hs.2.2) (by rw [h3]; have := hs.2.1; omega) (by rw [hct]; omega)
  rw [h3, h5] at hb
  have hle : w.mm.count - w.mm.freeCount ≤ w.mm.count := by rw [h2.inv.nfree]; omega
  have := hs.1
  have hmul := Int.mul_le_mul_of_nonneg_right hle (show (0 : Int) ≤ page_size - 16 by omega)
  omega

/-- With a limit that is a whole number of pages the limit holds. -/
theorem C43_limit_whole_pages (n : Nat) (page_size : Int) (cache : Nat) (limit limit_error : Bool) (wm k : Nat)
    (hs : Settings page_size wm) (hk : (wm : Int) = k * (page_size - 16)) (es : List Ev) (hne : ∀ h size, .alloc h size none ∉ es) :
    ∃ w, run n (start (Mm.init page_size cache limit limit_error wm)) es = .ok w ∧ Limited w := by
  obtain ⟨w, h1, _, h3⟩ := C43_accounting_partial n page_size cache limit limit_error wm hs es hne
  obtain ⟨w', free, own, g1, g2, g3, g4, g5, _⟩ := reach (n := n) (cache := cache) (limit := limit) (limit_error := limit_error) hs es
  have : w = w' := by rw [h1] at g1; exact Res.ok.inj g1
  subst this
  refine ⟨w, h1, ?_⟩
  intro hl
  have hb := h3 (by rw [← g4]; exact hl)
  rw [g3, g5]
  rw [hk] at hb ⊢
  have hps : (0 : Int) < page_size - 16 := by have := hs.1; omega
  have h5 : (w.mm.count - w.mm.freeCount) * (page_size - 16) < ((k : Int) + 1) * (page_size - 16) := by
    rw [Int.add_mul, Int.one_mul]; exact hb
  have h6 := Int.lt_of_mul_lt_mul_right h5 (Int.le_of_lt hps)
  exact Int.mul_le_mul_of_nonneg_right (by omega) (Int.le_of_lt hps)

/-- With failing mmap calls the page count is too high by the number of failures. -/
theorem C43_total_off_by_failures (n : Nat) (page_size : Int) (cache : Nat) (limit limit_error : Bool) (wm : Nat)
    (hs : Settings page_size wm) (es : List Ev) :
    ∃ w, run n (start (Mm.init page_size cache limit limit_error wm)) es = .ok w ∧ w.mm.count = w.mm.pages.length + w.fails := by
  obtain ⟨w, free, own, h1, h2, _⟩ := reach (n := n) (cache := cache) (limit := limit) (limit_error := limit_error) hs es
  exact ⟨w, h1, h2.count⟩

/-- One failed mmap: one page reported, none mapped. -/
theorem C43_failed_map :
    ∃ w, run 1 (start (Mm.init 2097152 8589934592 false false 8589934592)) [.alloc 0 100 none] = .ok w ∧
      w.mm.count = 1 ∧ w.mm.pages.length = 0 := ⟨_, rfl, rfl, rfl⟩

/-- A limit of 3 MiB with 2 MiB pages: two pages are in use. -/
theorem C43_limit_exceeded :
    ∃ w, run 1 (start (Mm.init 2097152 8589934592 true true 3145728)) [.alloc 0 2097136 (some 1), .alloc 0 100 (some 2)] = .ok w ∧
      ¬ Limited w := ⟨_, rfl, by unfold Limited; decide⟩

theorem C43_accounting_false : ¬ Full := by
  intro h
  obtain ⟨w, h1, h2, _⟩ := h 1 2097152 8589934592 false false 8589934592 (by unfold Settings; decide) [.alloc 0 100 none]
  obtain ⟨w', h3, h4, h5⟩ := C43_failed_map
  rw [h1] at h3
  have : w = w' := Res.ok.inj h3
  subst this
  have := h2.total
  omega

/-- A history within the hypotheses: a table of two pages is released into the
cache, another one takes a page from there, a request waits and is served. -/
example : Settings 2097152 3145728 := by unfold Settings; decide
example : ∃ w, run 2 (start (Mm.init 2097152 8589934592 true false 3145728))
    [.alloc 0 2097136 (some 1), .alloc 0 100 (some 2), .alloc 1 50 (some 3), .reset 0, .wake 1] = .ok w ∧
      w.mm.count = 2 ∧ w.mm.freeCount = 1 ∧ w.live = [⟨1, 1, 0, 50⟩] := ⟨_, rfl, rfl, rfl, rfl⟩

end Verif.C43
