import Verif.Spec.C14
import Verif.Props.C13
import Verif.Props.C10

/-! C14: a refresh does not change what readers see. -/
namespace Verif.C14
open Spec Dur C25
open Wal (Rec)

theorem written_drain {ι : Type} (mc : MemCmp) (f : IterFns ι) : ∀ (n : Nat) (m : Merge ι) (M : List Event),
    Merge.drain mc f n m = .ok M → Merger.written mc f n m = .ok (M.filter fun e => !e.isDelete) := by
  intro n
  induction n with
  | zero =>
    intro m M h
    unfold Merge.drain Merge.has at h
    unfold Merger.written
    cases hc : m.current with
    | some i => rw [hc] at h; cases h
    | none =>
      rw [hc] at h
      have e : m.at' f = .ok none := by unfold Merge.at'; rw [hc]
      rw [e, Res.bind_ok]
      have := Res.ok.inj h
      rw [← this]
      rfl
  | succ n ih =>
    intro m M h
    unfold Merge.drain Merge.has at h
    unfold Merger.written
    cases hc : m.current with
    | none =>
      rw [hc] at h
      have e : m.at' f = .ok none := by unfold Merge.at'; rw [hc]
      rw [e, Res.bind_ok]
      have := Res.ok.inj h
      rw [← this]
      rfl
    | some i =>
      rw [hc] at h
      simp only [Option.isSome_some, if_true] at h
      obtain ⟨o, ho, h⟩ := Res.bind_eq_ok.1 h
      cases o with
      | none => cases h
      | some e =>
        simp only at h
        obtain ⟨m', hm, h⟩ := Res.bind_eq_ok.1 h
        obtain ⟨es, hes, h⟩ := Res.bind_eq_ok.1 h
        have := Res.ok.inj h
        rw [ho, Res.bind_ok]
        simp only
        rw [hm, Res.bind_ok, ih m' es hes, Res.bind_ok, ← this]
        by_cases hd : e.isDelete <;> simp [hd]

theorem find_eq_some {L : List Event} (h : Ascending L) {e : Event} : e ∈ L → find L e.pair = some e := by
  intro he
  induction L with
  | nil => simp at he
  | cons a L ih =>
    unfold Ascending at h
    rw [List.pairwise_cons] at h
    unfold find
    rw [List.find?_cons]
    rcases List.mem_cons.1 he with rfl | he
    · simp
    · have hne : (a.pair == e.pair) = false := by
        have h1 := h.1 e he
        simp only [beq_eq_false_iff_ne, ne_eq]
        intro h2
        unfold evCmp at h1
        rw [h2] at h1
        have h3 : keyCmp e.pair e.pair = 0 := keyCmp_refl _
        omega
      rw [hne]
      exact ih h.2 he

/-- The new file of a refresh: for a memory table and a file that are sorted and
hold ids in one window of 2^63 (a partition), merger_write writes each key once
and ascending, no deletes, and exactly what was visible before.  The window is
needed because the comparison of ids wraps (C01, C13). -/
theorem C14_new_file_partial {ι : Type} (mc : MemCmp) (f : IterFns ι) (itm itf : ι) (base : Nat) (mem file : List Event)
    (hm : Ascending mem ∧ ∀ e ∈ mem, C13.Window base e) (hf : Ascending file ∧ ∀ e ∈ file, C13.Window base e)
    (ym : C13.Yields f itm mem) (yf : C13.Yields f itf file) (fuel : Nat) (hfuel : mem.length + file.length ≤ fuel) :
    ∃ out, Merger.execute mc f fuel itm itf = .ok out ∧ NewFile mem file out := by
  obtain ⟨M, ⟨ha, hM⟩, hd⟩ := C13.C13_merge_partial base [mem, file] (by
    intro L hL
    simp only [List.mem_cons, List.not_mem_nil, or_false] at hL
    rcases hL with rfl | rfl
    · exact hm
    · exact hf) ι mc f [itm, itf] ⟨ym, yf, trivial⟩
  have h1 := hd fuel (by simpa using hfuel)
  obtain ⟨m, h2, h3⟩ := Res.bind_eq_ok.1 h1
  refine ⟨M.filter fun e => !e.isDelete, ?_, ?_, ?_, ?_⟩
  · unfold Merger.execute
    have h2' : Merge.openIt mc f (Merge.add (Merge.add Merge.init itm) itf) = .ok m := h2
    rw [h2', Res.bind_ok]
    exact written_drain mc f fuel m M h3
  · exact List.Pairwise.sublist List.filter_sublist ha
  · intro e he
    have := (List.mem_filter.1 he).2
    simpa using this
  · intro k
    have hfl : ∀ x, x ∈ M ↔ (find mem x.pair).or (find file x.pair) = some x := by
      intro x
      rw [hM x]
      have : [mem, file].flatten = mem ++ file := by simp
      rw [this, List.find?_append]
      rfl
    have hpair : ∀ {L : List Event} {e : Event}, find L k = some e → e.pair = k := by
      intro L e he
      simpa using List.find?_some he
    cases ho : (find mem k).or (find file k) with
    | none =>
      show _ = none
      cases hr : find (M.filter fun e => !e.isDelete) k with
      | none => rfl
      | some e =>
        have hk := hpair hr
        have he := (List.mem_filter.1 (List.mem_of_find?_eq_some hr)).1
        have := (hfl e).1 he
        rw [hk, ho] at this
        cases this
    | some e =>
      have hk : e.pair = k := by
        rcases Option.or_eq_some_iff.1 ho with h | ⟨_, h⟩
        · exact hpair h
        · exact hpair h
      have heM : e ∈ M := by
        rw [hfl e, hk]
        exact ho
      by_cases hdel : e.isDelete
      · rw [Option.filter_some]
        simp only [hdel, Bool.not_true, Bool.false_eq_true, if_false]
        cases hr : find (M.filter fun e => !e.isDelete) k with
        | none => rfl
        | some x =>
          have hkx := hpair hr
          obtain ⟨hx, hxd⟩ := List.mem_filter.1 (List.mem_of_find?_eq_some hr)
          have := (hfl x).1 hx
          rw [hkx, ho] at this
          have := Option.some.inj this
          subst this
          simp [hdel] at hxd
      · rw [Option.filter_some]
        simp only [hdel, Bool.not_false, if_true]
        have hmem : e ∈ M.filter fun e => !e.isDelete := List.mem_filter.2 ⟨heM, by simp [hdel]⟩
        rw [← hk]
        exact find_eq_some (List.Pairwise.sublist List.filter_sublist ha) hmem

/-- After a safe history no step of a refresh changes what is read, for every
key, with batches arriving at any time in between.  Missing for the full
property: failing refreshes (false, below). -/
theorem C14_steps_partial (iv : Nat) (ops : List Op) (hs : Safe iv Dur.init ops) (db : Db) (hist : List Rec)
    (hr : runH iv Dur.init [] ops = .ok (db, hist)) (p : Nat) (op : Op) (ho : RefreshStep p op) (db' : Db)
    (hd : step iv db op = .ok db') (k : Nat × List UInt8) : view iv db' k = view iv db k := by
  obtain ⟨db0, H0, n, h1, h2⟩ := run_inv ops (init_inv iv) hs
  rw [hr] at h1
  have := Res.ok.inj h1
  simp only [Prod.mk.injEq] at this
  obtain ⟨rfl, rfl⟩ := this
  have h3 : Dur.Inv iv db' hist n := by
    rcases ho with rfl | rfl | rfl | rfl | rfl | rfl <;> have e := Res.ok.inj hd <;> rw [← e]
    · exact begin_inv h2 p
    · exact merge_inv h2 p
    · exact apply_inv h2 p
    · exact complete_inv h2 p
    · exact delete_inv h2 p
    · exact finish_inv h2 p
  rw [view_content h3, view_content h2]

/-- After a failed refresh the first step of the next one brings back the older
version. -/
theorem C14_failed_refresh_false : ¬ Full 10 := by
  intro hf
  have h : ((runH 10 Dur.init [] (C10.failed.take 6)).bind fun (db, _) => (step 10 db (.begin_ 0)).bind fun db' =>
      .ok (view 10 db' (3, [1]), view 10 db (3, [1]))) = .ok (some (ev 3 1), some (ev 3 2)) := by decide +kernel
  cases hr : runH 10 Dur.init [] (C10.failed.take 6) with
  | ok r =>
    obtain ⟨db, hist⟩ := r
    have hst : step 10 db (.begin_ 0) = .ok (begin_ 10 db 0) := rfl
    have h1 := hf _ db hist 0 _ _ (by unfold C10.Plain C10.failed; simp) hr (.inl rfl) hst (3, [1])
    rw [hr, Res.bind_ok] at h
    simp only [hst, Res.bind_ok, Res.ok.injEq, Prod.mk.injEq] at h
    rw [h.1, h.2] at h1
    exact absurd h1 (by decide)
  | err m => rw [hr] at h; cases h
  | abort m => rw [hr] at h; cases h
  | ub m => rw [hr] at h; cases h

/-- The hypotheses are met: an update and a delete over a file with three keys. -/
example : Merger.execute memCmpStd C13.listIter 9
    [ev 3 9, { (ev 5 0) with flags := 1 }, ev 6 1] [ev 2 1, ev 3 1, ev 5 1] = .ok [ev 2 1, ev 3 9, ev 6 1] := by
  decide +kernel

example : Ascending [ev 3 9, { (ev 5 0) with flags := 1 }, ev 6 1] ∧
    ∀ e ∈ [ev 3 9, { (ev 5 0) with flags := 1 }, ev 6 1], C13.Window 0 e := by
  unfold Ascending C13.Window evCmp
  decide +kernel

example : Safe 10 Dur.init (sample.take 6) := safe_init (by decide +kernel)

end Verif.C14
