import Verif.Proofs.C52
import Verif.Proofs.DurCheck
import Verif.Props.C25

/-! C52: a checkpoint empties memory and truncates the log. -/
namespace Verif.C52
open Dur C25
open Wal (Rec)

/-- After a safe history and with nothing under way, a checkpoint puts all data
into the partition files and leaves the memory tables empty, and garbage
collection then keeps only the newest log file.  The bound says that log numbers
are 64-bit.  Missing for the full property: failing refreshes (false, below),
the flag that marks scheduled partitions (C51), and garbage collection in the
windows of C25. -/
theorem C52_checkpoint_partial (iv : Nat) (ops : List Op) (hs : Safe iv Dur.init ops) (db : Db) (hist : List Rec)
    (hr : runH iv Dur.init [] ops = .ok (db, hist)) (hq : Quiet db) (hb : db.lsn < 18446744073709551615) :
    Emptied iv db hist := by
  obtain ⟨db', H', n, h1, h2⟩ := run_inv ops (init_inv iv) hs
  rw [hr] at h1
  have := Res.ok.inj h1
  simp only [Prod.mk.injEq] at this
  obtain ⟨rfl, rfl⟩ := this
  obtain ⟨db', g1, g2, g3, g4, g5, g6⟩ := checkpoint_fold db.known db h2 hq fun p hp => hp
  have hck : checkpoint iv db = db' := g1
  have hclean : ∀ p, Clean (db'.slots p) := by
    intro p
    apply g6
    by_cases hp : p ∈ db.known
    · exact .inl hp
    · right
      rw [h2.known p hp]
      intro x hx
      cases hx
  unfold Emptied
  rw [hck]
  refine ⟨?_, ?_, ?_⟩
  · intro k
    rw [← view_content g2 k]
    unfold saved view
    have hsl := g2.slots (partOf iv k.1)
    cases hx : (db'.slots (partOf iv k.1)).part with
    | none =>
      have hd := hsl.disk
      rw [partOr_none hx] at hd
      rw [hd.2]
    | some x =>
      have hd := hsl.disk
      have hp := hsl.part
      rw [partOr_some hx] at hd hp
      have hk : partOf iv k.1 ∈ db'.known := by
        apply Classical.byContradiction
        intro hn
        rw [g2.known _ hn] at hx
        cases hx
      have hi := g3.2 _ hk x hx
      unfold DiskOK at hd
      rw [hi] at hd
      obtain ⟨_, c2, c3⟩ := hclean _ x hx
      simp only
      rw [hd.2, c2, c3]
      have hf := hp.file k rfl
      cases hxf : x.file with
      | none => rfl
      | some f =>
        rw [hxf] at hf
        show tget f.tbl k = Option.filter _ ((Option.or (Option.or none none)) (tget f.tbl k))
        simp only [Option.none_or]
        have hf' : tget f.tbl k = live (vl (fun l => decide (l ≤ lsnOf (some f))) (evs hist) k) := hf
        rw [hf']
        exact (live_or_live none _).symm
  · intro p x hx
    obtain ⟨_, c2, c3⟩ := hclean p x hx
    exact ⟨c2, by rw [c3]⟩
  · obtain ⟨w, rs, hw⟩ := h2.cur
    refine ⟨(db.cur, rs), ?_, ?_⟩
    · unfold gc
      simp only
      rw [lsnMin_clean db' hclean, g4, gcCount_all]
      · rw [hw]
        simp
      · intro x hx
        obtain ⟨f, hf, rfl⟩ := List.mem_map.1 hx
        have hle : f.1 ≤ db.cur := by
          have hfp := h2.files
          rw [hw] at hf hfp
          rw [List.pairwise_append] at hfp
          rcases List.mem_append.1 hf with hf | hf
          · exact Nat.le_of_lt (hfp.2.2 f hf (db.cur, rs) (by simp)).1
          · simp only [List.mem_singleton] at hf
            rw [hf]
            exact Nat.le_refl _
        have := h2.curLe
        omega
    · rw [hw, List.getLast?_append]
      rfl

/-- After a failed refresh a checkpoint saves only the newer memory table. -/
def failed : List Op := [.log [ev 3 1], .commit, .begin_ 0, .fail 0, .log [ev 4 2], .commit]

theorem C52_failed_refresh_false : ¬ Full 10 := by
  intro hf
  have h : ((runH 10 Dur.init [] failed).bind fun (db, hist) =>
      .ok (db.pending.isNone && db.known.all (fun p => (db.slots p).part.all fun x => x.phase == .idle),
        saved 10 (checkpoint 10 db) (3, [1]), content 10 hist (3, [1]))) =
      .ok (true, none, some (ev 3 1)) := by decide +kernel
  cases hr : runH 10 Dur.init [] failed with
  | ok r =>
    obtain ⟨db, hist⟩ := r
    rw [hr, Res.bind_ok] at h
    simp only [Res.ok.injEq, Prod.mk.injEq, Bool.and_eq_true, Option.isNone_iff_eq_none, List.all_eq_true] at h
    obtain ⟨⟨h1, h2⟩, h3, h4⟩ := h
    have h5 := (hf failed db hist (by unfold NoDrops failed; simp) hr ⟨h1, fun p hp x hx => by
      have := h2 p hp
      rw [hx] at this
      simpa using this⟩).1 (3, [1])
    rw [h3, h4] at h5
    cases h5
  | err m => rw [hr] at h; cases h
  | abort m => rw [hr] at h; cases h
  | ub m => rw [hr] at h; cases h

/-- The hypotheses are met: two partitions with unsaved data, two log files. -/
example : Safe 10 Dur.init [.log [ev 3 1, ev 14 1], .commit, .rotate, .log [ev 3 2], .commit] :=
  safe_init (by decide +kernel)

example : ((runH 10 Dur.init [] [.log [ev 3 1, ev 14 1], .commit, .rotate, .log [ev 3 2], .commit]).bind fun (db, _) =>
    .ok (db.pending.isNone && db.known.all (fun p => (db.slots p).part.all fun x => x.phase == .idle),
      db.wal.length, (gc db).wal.length, (gc (checkpoint 10 db)).wal.length)) = .ok (true, 2, 2, 1) := by
  decide +kernel

end Verif.C52
