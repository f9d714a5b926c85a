import Verif.Proofs.DurCheck
import Verif.Spec.C24
import Verif.Props.C25

/-! C24: log garbage collection never removes needed records. -/
namespace Verif.C24
open Dur C25
open Wal (Rec)

/-- For every list of log files in order and every oldest needed number `m`:
the oldest files go, only files all of whose records are below `m`, the newest
file stays, and a file with a record from `m` on stays. -/
theorem C24_files (m : Nat) (files : List (Nat × List Rec)) (h : Ordered files) :
    (Wal.gcBetween (files.map (·.1)) m).1 ++ (Wal.gcBetween (files.map (·.1)) m).2 = files.map (·.1) ∧
    (files ≠ [] → (Wal.gcBetween (files.map (·.1)) m).2.getLast? = (files.map (·.1)).getLast?) ∧
    (∀ f ∈ files, f.1 ∈ (Wal.gcBetween (files.map (·.1)) m).1 → ∀ r ∈ f.2, r.lsn < m) ∧
    (∀ f ∈ files, (∃ r ∈ f.2, m ≤ r.lsn) → f.1 ∈ (Wal.gcBetween (files.map (·.1)) m).2) := by
  have hgone : ∀ f ∈ files, f.1 ∈ (Wal.gcBetween (files.map (·.1)) m).1 → ∀ r ∈ f.2, r.lsn < m := by
    intro f hf hg
    unfold Wal.gcBetween at hg
    simp only at hg
    rw [← List.map_take] at hg
    obtain ⟨g, hg, hfg⟩ := List.mem_map.1 hg
    have : f = g := by
      have hgf := List.mem_of_mem_take hg
      apply Classical.byContradiction
      intro hne
      obtain ⟨i, hi, rfl⟩ := List.mem_iff_getElem.1 hf
      obtain ⟨j, hj, rfl⟩ := List.mem_iff_getElem.1 hgf
      rcases Nat.lt_trichotomy i j with hij | hij | hij
      · have := (List.pairwise_iff_getElem.1 h i j hi hj hij).1
        omega
      · subst hij
        exact hne rfl
      · have := (List.pairwise_iff_getElem.1 h j i hj hi hij).1
        omega
    rw [this]
    exact gcCount_spec m files h g hg
  refine ⟨List.take_append_drop _ _, ?_, hgone, ?_⟩
  · intro hne
    unfold Wal.gcBetween
    simp only
    have hl := gcCount_lt m (files.map (·.1)) (by simpa using hne)
    rw [List.getLast?_drop, if_neg (by omega)]
  · intro f hf ⟨r, hr, hle⟩
    have hm : f.1 ∈ files.map (·.1) := List.mem_map.2 ⟨f, hf, rfl⟩
    have e : files.map (·.1) = (Wal.gcBetween (files.map (·.1)) m).1 ++ (Wal.gcBetween (files.map (·.1)) m).2 :=
      (List.take_append_drop _ _).symm
    rw [e] at hm
    rcases List.mem_append.1 hm with hm | hm
    · have := hgone f hf hm r hr
      omega
    · exact hm

/-- Nothing more than needed is kept: a file goes when the next one starts at or
below `m`. -/
theorem C24_frees (m : Nat) : ∀ (ids : List Nat), ids.Pairwise (· < ·) → ∀ (i : Nat) (hi : i + 1 < ids.length),
    ids[i + 1] ≤ m → ids[i] ∈ (Wal.gcBetween ids m).1 := by
  intro ids
  unfold Wal.gcBetween
  simp only
  induction ids with
  | nil => intro _ i hi; simp at hi
  | cons a l ih =>
    intro hp i hi hle
    rw [List.pairwise_cons] at hp
    cases l with
    | nil => simp at hi
    | cons b l =>
      have hb : b ≤ m := by
        cases i with
        | zero => exact hle
        | succ i =>
          have hi' : i < l.length := by simpa using hi
          have h1 : l[i] ≤ m := hle
          have h2 := (List.pairwise_cons.1 hp.2).1 l[i] (List.getElem_mem hi')
          omega
      have e : Wal.gcCount m (a :: b :: l) = Wal.gcCount m (b :: l) + 1 := by
        simp only [Wal.gcCount]
        rw [if_pos hb]
      rw [e, List.take_succ_cons]
      cases i with
      | zero => exact List.mem_cons_self
      | succ i => exact List.mem_cons_of_mem _ (ih hp.2 i (by simpa using hi) hle)

/-- In a safe history garbage collection keeps every record with an event that
is not in the partition file that a restart takes.  Missing for the full
property: garbage collection while a refresh is between refresh_apply and the
deletion of the old file (false, below), or while a batch is between wal_write
and engine_commit, and failing refreshes. -/
theorem C24_needed_partial (iv : Nat) (ops : List Op) (hs : Safe iv Dur.init ops) (db : Db) (hist : List Rec)
    (hr : runH iv Dur.init [] ops = .ok (db, hist)) (ha : Allowed db .gc) :
    ∀ r ∈ hist, (∃ l n es, r = .write l n es ∧ ∃ e ∈ es, ¬ Stored db (partOf iv e.id) l) →
      r ∈ (gc db).wal.flatMap (·.2) := by
  obtain ⟨db', H', n, h1, h2⟩ := run_inv ops (init_inv iv) hs
  rw [hr] at h1
  have := Res.ok.inj h1
  simp only [Prod.mk.injEq] at this
  obtain ⟨rfl, rfl⟩ := this
  obtain ⟨n', h3⟩ := gc_inv h2 ha.1 ha.2
  rintro r hrm ⟨l, m, es, rfl, e, he, hns⟩
  rw [h3.wal]
  rw [← List.take_append_drop n' hist] at hrm
  rcases List.mem_append.1 hrm with hrm | hrm
  · exfalso
    apply hns
    have hc : l ≤ lsnOf (dur (db.slots (partOf iv e.id)).files) :=
      h3.cover (l, e) (List.mem_flatMap.2 ⟨_, hrm, List.mem_map.2 ⟨e, he, rfl⟩⟩)
    have hre := recover_eq (h2.slots (partOf iv e.id)).disk
    have hpos : 1 ≤ l := by
      obtain ⟨l', m', es', he', _, h⟩ := h2.writes _ (List.mem_of_mem_take hrm)
      simp only [Rec.write.injEq] at he'
      omega
    cases hd : dur (db.slots (partOf iv e.id)).files with
    | none =>
      rw [hd] at hc
      simp only [lsnOf] at hc
      omega
    | some f =>
      rw [hd] at hc hre
      exact ⟨f, hre, hc⟩
  · exact hrm

/-- Garbage collection between refresh_apply and the end of the refresh removes
the only copy of a batch. -/
theorem C24_in_refresh_false : ¬ Full 10 := by
  intro hf
  have h : ((runH 10 Dur.init [] (gcInRefresh.take 6)).bind fun (db, hist) =>
      .ok (hist, (gc db).wal.map (·.2), (db.slots 0).files.id_.isNone, (db.slots 0).files.complete.isNone,
        db.pending.isNone)) = .ok ([.write 1 1 [ev 3 1]], [[]], true, true, true) := by
    decide +kernel
  cases hr : runH 10 Dur.init [] (gcInRefresh.take 6) with
  | ok r =>
    obtain ⟨db, hist⟩ := r
    rw [hr, Res.bind_ok] at h
    simp only [Res.ok.injEq, Prod.mk.injEq] at h
    obtain ⟨rfl, h2, h3, h4, h5⟩ := h
    rw [Option.isNone_iff_eq_none] at h3 h4 h5
    have h1 := hf _ db _ (by unfold NoDrops gcInRefresh; simp) hr h5 (.write 1 1 [ev 3 1]) (by simp)
      ⟨1, 1, [ev 3 1], rfl, ev 3 1, by simp, ?_⟩
    · rw [List.flatMap_def, h2] at h1
      simp at h1
    · rintro ⟨f, hf, _⟩
      have e : partOf 10 (ev 3 1).id = 0 := by decide
      rw [e] at hf
      unfold recover at hf
      rw [h3, h4] at hf
      cases hb : (db.slots 0).files.incomplete <;> rw [hb] at hf <;> cases hf
  | err m => rw [hr] at h; cases h
  | abort m => rw [hr] at h; cases h
  | ub m => rw [hr] at h; cases h

example : Ordered [(1, [.write 1 1 [ev 3 1], .write 2 1 [ev 4 1]]), (3, [.write 3 1 [ev 3 2]]), (4, [])] := by
  unfold Ordered
  decide +kernel

example : Wal.gcBetween [1, 3, 4] 3 = ([1], [3, 4]) := by decide

example : Safe 10 Dur.init (sample.take 18) := safe_init (by decide +kernel)

end Verif.C24
