import Verif.Proofs.HeapRun

/-! C44: table allocations never overlap. -/
namespace Verif.C44
open Mem

/-- Partial: for any number of tables and any sequence of requests (of 0 to
2^31-1 bytes; failing mmap calls included), memory in use lies inside mapped
pages and does not overlap, and a request larger than a page gets NULL and
changes nothing.  A record that fits a page is written inside it.  Missing:
records larger than a page, for which event_allocate writes through NULL or
outside the page (below). -/
theorem C44_no_overlap_partial (n : Nat) (page_size : Int) (cache : Nat) (limit limit_error : Bool) (wm : Nat)
    (hs : Settings page_size wm) (es : List Ev) :
    ∃ w, run n (start (Mm.init page_size cache limit limit_error wm)) es = .ok w ∧ Disjoint w ∧
      (∀ h (size : Nat) env, page_size - 16 < size →
        (w.heap h).allocate w.mm size env = .ok (w.heap h, w.mm, .null)) ∧
      ∀ h, h < n → ∀ (size : Nat) env, fresh w.mm env = true → (14 + size : Int) ≤ page_size - 16 →
        ∃ r, (w.heap h).event_allocate w.mm size env = .ok r := by
  obtain ⟨w, free, own, h1, h2, h3, _⟩ := reach (n := n) (cache := cache) (limit := limit) (limit_error := limit_error) hs es
  refine ⟨w, h1, ⟨?_, h2.apart⟩, ?_, ?_⟩
  · intro x hx
    obtain ⟨a1, a2, a3, a4, s, a5, a6⟩ := h2.live x hx
    have := (h2.inv.used x.heap a1 x.page a2 s a5).2
    exact ⟨a3, by omega, by rw [a5]; rfl⟩
  · intro h size env hsz
    unfold Heap.allocate
    have : (size : Int) > w.mm.pageSize := by rw [h3]; omega
    rw [if_pos this]
  · intro h hn size env hfr hsz
    have hct := h2.count
    have hw : wrapS32 (14 + (size : Int)) = 14 + size := wrapS32_id (by omega) (by have := hs.2.1; omega)
    have hc0 : 0 ≤ w.mm.count := by rw [hct]; omega
    have hs0 : (0 : Int) ≤ 14 + (size : Int) := Int.add_nonneg (by decide) (Int.natCast_nonneg _)
    obtain ⟨h', m', p, g1, g2⟩ := allocate_ok h2.inv hc0 h hn (14 + (size : Int)) hs0 env hfr
    unfold Heap.event_allocate
    rw [hw, g1]
    obtain ⟨hk, _, free', own', hi, _, hr⟩ := g2
    cases p with
    | «at» q off =>
      obtain ⟨_, b2, b3, ⟨s, b4, b5⟩, _⟩ := hr
      have := (hi.used h hn q b2 s b4).2
      rw [hk.size] at this
      rw [b5] at this
      have hno : ¬ (off < 0 ∨ off + (14 + (size : Int)) > w.mm.pageSize) := by
        rintro (hlt | hgt)
        · exact absurd b3 (Int.not_le.2 hlt)
        · exact absurd this (Int.not_le.2 hgt)
      refine ⟨(h', m', Heap.Ptr.at q off), ?_⟩
      rw [Res.bind_ok]
      dsimp only
      rw [if_neg hno]
    | null =>
      have := hr.1
      rw [h3] at this
      exact absurd hsz (Int.not_le.2 this)
    | wait => exact ⟨_, rfl⟩
    | throw => exact ⟨_, rfl⟩

/-- A record of 3 MB with the default page size: the allocation returns NULL and
event_init writes through it. -/
theorem C44_large_record_null :
    Heap.init.event_allocate (Mm.init 2097152 8589934592 false false 8589934592) 3000000 (some 1) =
      .ub "event_init: null pointer" := by decide +kernel

/-- A record of 2^31 bytes or more: the size turns negative, "fits", and
event_init writes outside the page. -/
theorem C44_huge_record_overruns :
    Heap.init.event_allocate (Mm.init 2097152 8589934592 false false 8589934592) 2147483648 (some 1) =
      .ub "event_init: write outside the page" := by decide +kernel

theorem C44_no_overlap_false : ¬ Full := by
  intro h
  obtain ⟨w, h1, _, h3⟩ := h 1 2097152 8589934592 false false 8589934592 (by unfold Settings; decide) []
  have hw : start (Mm.init 2097152 8589934592 false false 8589934592) = w := Res.ok.inj h1
  subst hw
  rcases h3 0 (by omega) rfl 3000000 (some 1) rfl (by omega) with ⟨r, hr⟩ | ⟨m, hm⟩
  · have := C44_large_record_null.symm.trans hr; cases this
  · have := C44_large_record_null.symm.trans hm; cases this

/-- Three records in two tables, one table moved and one released. -/
example : ∃ w, run 3 (start (Mm.init 2097152 8589934592 false false 8589934592))
    [.alloc 0 100 (some 7), .alloc 0 200 (some 8), .alloc 1 2097136 (some 9), .move 2 0, .reset 1, .alloc 0 1 none] = .ok w ∧
      w.live = [⟨0, 9, 0, 1⟩, ⟨2, 7, 100, 200⟩, ⟨2, 7, 0, 100⟩] := ⟨_, rfl, rfl⟩

end Verif.C44
