import Verif.Proofs.DurCheck
import Verif.Spec.C49
import Verif.Props.C25

/-! C49: replay skips exactly what is already stored. -/
namespace Verif.C49
open Dur C25
open Wal (Rec)

/-- One event: skipped if and only if the partition has a file with a number at
or above that of the record; otherwise it becomes the newest version in memory
and the memory table covers the record. -/
theorem C49_event (iv l : Nat) (db : Db) (e : Event) :
    ((∃ x f, (db.slots (partOf iv e.id)).part = some x ∧ x.file = some f ∧ l ≤ f.lsn) → replayEvent iv l db e = db) ∧
    ((¬ ∃ x f, (db.slots (partOf iv e.id)).part = some x ∧ x.file = some f ∧ l ≤ f.lsn) →
      ∃ x, ((replayEvent iv l db e).slots (partOf iv e.id)).part = some x ∧
        (∀ k, tget x.act.tbl k =
          if e.pair = k then some e
          else match (db.slots (partOf iv e.id)).part with
            | none => none
            | some y => tget y.act.tbl k) ∧
        x.act.lsnMin ≤ l ∧ l ≤ x.act.lsnMax ∧
        ∀ q, q ≠ partOf iv e.id → (replayEvent iv l db e).slots q = db.slots q) := by
  have hc : (partOr (db.slots (partOf iv e.id))).file.any (fun f => decide (f.lsn ≥ l)) = true ↔
      ∃ x f, (db.slots (partOf iv e.id)).part = some x ∧ x.file = some f ∧ l ≤ f.lsn := by
    rw [Option.any_eq_true]
    constructor
    · rintro ⟨f, h1, h2⟩
      cases hs : (db.slots (partOf iv e.id)).part with
      | none => rw [partOr_none hs] at h1; cases h1
      | some x =>
        rw [partOr_some hs] at h1
        exact ⟨x, f, rfl, h1, by simpa using h2⟩
    · rintro ⟨x, f, h1, h2, h3⟩
      exact ⟨f, by rw [partOr_some h1]; exact h2, by simpa using h3⟩
  have e1 : replayEvent iv l db e =
      if (partOr (db.slots (partOf iv e.id))).file.any (fun f => f.lsn ≥ l) then db
      else
        db.set (partOf iv e.id)
          { db.slots (partOf iv e.id) with
            part := some
              { partOr (db.slots (partOf iv e.id)) with
                act := ({ (partOr (db.slots (partOf iv e.id))).act with
                  tbl := tset (partOr (db.slots (partOf iv e.id))).act.tbl e }).follow l } } := rfl
  constructor
  · intro h
    rw [e1, if_pos (hc.2 h)]
  · intro h
    rw [e1, if_neg (fun h' => h (hc.1 h'))]
    refine ⟨{ partOr (db.slots (partOf iv e.id)) with
      act := ({ (partOr (db.slots (partOf iv e.id))).act with
        tbl := tset (partOr (db.slots (partOf iv e.id))).act.tbl e }).follow l }, ?_, ?_, ?_, ?_, ?_⟩
    · rw [set_slots, if_pos rfl]
    · intro k
      rw [Mem.follow_tbl, tget_tset]
      cases hs : (db.slots (partOf iv e.id)).part with
      | none => rw [partOr_none hs]; rfl
      | some y => rw [partOr_some hs]
    · exact (Mem.follow_min _ _).2
    · exact (Mem.follow_max _ _).2.1
    · intro q hq
      rw [set_slots, if_neg hq]

theorem evs_filter (P : Nat → Bool) : ∀ (H : List Rec),
    evs (H.filter fun r => P r.lsn) = (evs H).filter fun y => P y.1 := by
  intro H
  induction H with
  | nil => rfl
  | cons r H ih =>
    have e0 : ∀ (a : Rec) (b : List Rec), evs (a :: b) = evs [a] ++ evs b := fun a b => evs_append [a] b
    rw [e0 r H, List.filter_append, ← ih]
    have hr : (evs [r]).filter (fun y => P y.1) = if P r.lsn then evs [r] else [] := by
      cases r with
      | drop l p => simp [evs]
      | write l n es =>
        rw [evs_write]
        cases hP : P l with
        | true => simp [Rec.lsn, hP, List.filter_map, Function.comp_def, List.filter_eq_self.2]
        | false => simp [Rec.lsn, hP, List.filter_map, Function.comp_def]
    rw [hr]
    cases hP : P r.lsn with
    | true =>
      rw [List.filter_cons_of_pos (by simpa using hP), e0 r]
      simp
    | false =>
      rw [List.filter_cons_of_neg (by simpa using hP)]
      simp

theorem vl_filter (P : Nat → Bool) (xs : List (Nat × Event)) (k : Key) :
    vl (fun _ => true) (xs.filter fun y => P y.1) k = vl P xs k := by
  unfold vl
  rw [List.filter_filter]
  have e : (fun a : Nat × Event => (true && a.2.pair == k) && P a.1) = fun a => P a.1 && a.2.pair == k := by
    funext a
    rw [Bool.true_and, Bool.and_comm]
  rw [e]

theorem version_filter (iv : Nat) (P : Nat → Bool) (k : Key) (H : List Rec) (h : OnlyWrites H) :
    version iv k (H.filter fun r => P r.lsn) = vl P (evs H) k := by
  rw [version_vl iv k _ fun r hr => h r (List.mem_filter.1 hr).1, evs_filter, vl_filter]

/-- After a safe history and a restart, the file of every partition has exactly
the effect of the logged records up to its number and memory exactly that of the
later ones.  Missing for the full property: failing refreshes (false, below)
and garbage collection in the windows of C25. -/
theorem C49_exact_partial (iv : Nat) (ops : List Op) (hs : Safe iv Dur.init ops) :
    ∃ db hist db', runH iv Dur.init [] ops = .ok (db, hist) ∧ restart iv db = .ok db' ∧
      ∀ p x, (db'.slots p).part = some x → Exact iv hist p x := by
  obtain ⟨db, H, n, h1, h2⟩ := run_inv ops (init_inv iv) hs
  obtain ⟨db', h3, h4, _, h5⟩ := restart_inv h2
  refine ⟨db, H, db', h1, h3, ?_⟩
  intro p x hx
  have hp := (h4.slots p).part
  rw [partOr_some hx] at hp
  have ht : top x = lsnOf x.file := by
    unfold top
    rw [(h5 p x hx).1]
    exact Nat.max_eq_left (Nat.zero_le _)
  unfold Exact
  cases hf : x.file with
  | none =>
    intro k hk
    have h6 := hp.act k hk
    rw [ht, hf] at h6
    rw [h6, version_vl iv k H h4.writes]
    apply vl_congr
    intro y hy _
    have := evs_pos h4.writes hy
    show decide (0 < y.1) = true
    rw [decide_eq_true_eq]
    omega
  | some f =>
    intro k hk
    have h6 := hp.act k hk
    have h7 := hp.file k hk
    rw [ht, hf] at h6
    rw [hf] at h7
    constructor
    · unfold content
      rw [version_filter iv (fun l => decide (l ≤ f.lsn)) k H h4.writes]
      exact h7
    · rw [version_filter iv (fun l => decide (f.lsn < l)) k H h4.writes]
      exact h6

/-- After a failed refresh the number of the next file covers a batch that is not
in it; the replay skips it. -/
theorem C49_failed_refresh_false : ¬ Full 10 := by
  intro hf
  have h : ((runH 10 Dur.init [] failed).bind fun (db, hist) => (restart 10 db).bind fun db' =>
      .ok (hist, (db'.slots 0).part)) =
      .ok ([.write 1 1 [ev 3 1], .write 2 1 [ev 4 2]], some { file := some { lsn := 2, tbl := [ev 4 2] } }) := by
    decide +kernel
  cases hr : runH 10 Dur.init [] failed with
  | ok r =>
    obtain ⟨db, hist⟩ := r
    rw [hr, Res.bind_ok] at h
    cases hr2 : restart 10 db with
    | ok db' =>
      simp only [hr2, Res.bind_ok, Res.ok.injEq, Prod.mk.injEq] at h
      obtain ⟨rfl, h2⟩ := h
      have h1 := hf _ db _ db' (by unfold NoDrops failed; simp) hr hr2 0 _ h2
      unfold Exact at h1
      have h3 := (h1 (3, [1]) (by decide)).1
      exact absurd h3 (by decide +kernel)
    | err m => simp only [hr2] at h; cases h
    | abort m => simp only [hr2] at h; cases h
    | ub m => simp only [hr2] at h; cases h
  | err m => rw [hr] at h; cases h
  | abort m => rw [hr] at h; cases h
  | ub m => rw [hr] at h; cases h

/-- The hypotheses are met by a history with a batch over two partitions of
which one is saved. -/
example : Safe 10 Dur.init
    [.log [ev 3 1, ev 14 1], .commit, .begin_ 0, .merge 0, .apply_ 0, .complete 0, .delete 0, .finish 0] :=
  safe_init (by decide +kernel)

end Verif.C49
