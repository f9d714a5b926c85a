import Verif.Proofs.C74p

/-! C74: no two threads touch the same data at the same time, one of them writing. -/
namespace Verif.C74
open Races
open Access (How Instr)

/-- **C74** (partial).  However threads write events, read with cursors, drop, refresh,
download and upload partitions, and look at them, nothing goes wrong, and the only data
that is touched at the same time are the parts of partitions and by the functions in
`Known`; as long as no thread takes a lock that it already has.  Missing is `Full`,
which is not true. -/
theorem C74_partial (n : Nat) (prog : Nat → List Call) (hp : ∀ t, Proper [] (prog t)) (sched : List (Nat × Bool))
    (hn : ∀ x ∈ sched, x.1 < n) (hc : Calm (start prog) sched) :
    ∃ s, run (start prog) sched = .ok s ∧ ∀ x y, Race s x y →
      ∃ p f, x.loc = .part p f ∧ (Known x.fn y.fn f ∨ Known y.fn x.fn f) := by
  obtain ⟨s, e, d, a, R, m, h⟩ := run_calm sched
    (inv_start (single := false) (n := n) prog (fun t => xchk_proper _ C71.at_zero (hp t))) hn hc
  exact ⟨s, e, fun x y hr => race_known h hr⟩

/-- Programs with one cursor at a time, that do nothing else meanwhile and write
events one by one, take no lock that they have. -/
theorem C74_single (n : Nat) (prog : Nat → List Call) (hp : ∀ t, Proper [] (prog t)) (hs : ∀ t, Single false (prog t))
    (sched : List (Nat × Bool)) (hn : ∀ x ∈ sched, x.1 < n) :
    ∃ s, run (start prog) sched = .ok s ∧ ∀ x y, Race s x y →
      ∃ p f, x.loc = .part p f ∧ (Known x.fn y.fn f ∨ Known y.fn x.fn f) :=
  C74_partial n prog hp sched hn (calm_single sched (inv_start (n := n) prog fun t =>
    xchk_single _ C71.at_zero (hp t) (hs t) (fun _ => rfl) (by decide)) hn)

/-- Without `SHOW`, downloads and rebalancing no data is touched by two threads at the
same time, one of them writing. -/
theorem C74_quiet (n : Nat) (prog : Nat → List Call) (hp : ∀ t, Proper [] (prog t)) (sched : List (Nat × Bool))
    (hn : ∀ x ∈ sched, x.1 < n) (hc : Calm (start prog) sched) (hq : ∀ t, ∀ c ∈ prog t, Quiet c) :
    ∃ s, run (start prog) sched = .ok s ∧ ∀ x y, ¬ Race s x y := by
  obtain ⟨s, e, h⟩ := C74_partial n prog hp sched hn hc
  refine ⟨s, e, fun x y hr => ?_⟩
  obtain ⟨p, f, _, hk⟩ := h x y hr
  obtain ⟨t, u, _, hx, hy, _⟩ := hr
  have h1 := quiet_run e hq hx
  have h2 := quiet_run e hq hy
  rcases hk with hk | hk <;> rcases known_loud hk with e | e
  · rw [h1] at e; cases e
  · rw [h2] at e; cases e
  · rw [h2] at e; cases e
  · rw [h1] at e; cases e

/-! ### The races there are -/

/-- Thread 0 makes a partition and does `a`, thread 1 does `b`. -/
def two (a b : List Call) : Nat → List Call
  | 0 => .fill 5 0 9 :: a
  | 1 => b
  | _ => []

/-- `SHOW` reads the state of a partition while `DROP ... ON STORAGE` changes it. -/
theorem C74_show_state : ∃ s, run (start (two [.show_] [.dropFile 5 false])) (go 0 5 ++ go 1 10 ++ go 0 2) = .ok s ∧
    Race s ⟨.part 0 .state, false, .engine_show⟩ ⟨.part 0 .state, true, .engine_drop_file⟩ :=
  race_of (by decide +kernel)

/-- And its index. -/
theorem C74_show_index : ∃ s, run (start (two [.show_] [.dropFile 5 false])) (go 0 5 ++ go 1 10 ++ go 0 2) = .ok s ∧
    Race s ⟨.part 0 .index, false, .engine_show⟩ ⟨.part 0 .index, true, .engine_drop_file⟩ :=
  race_of (by decide +kernel)

/-- `SHOW` reads the index while a download reads it again from the file. -/
theorem C74_show_download : ∃ s, run (start (two [.show_] [.download 5 false])) (go 0 5 ++ go 1 7 ++ go 0 2) = .ok s ∧
    Race s ⟨.part 0 .index, false, .engine_show⟩ ⟨.part 0 .index, true, .engine_download⟩ :=
  race_of (by decide +kernel)

/-- `SHOW` reads the size of the memtable while an event is written to it. -/
theorem C74_show_write :
    ∃ s, run (start (two [.show_] [.write [(5, .match_)] false])) (go 0 5 ++ go 1 6 ++ go 0 2) = .ok s ∧
    Race s ⟨.part 0 .active, false, .engine_show⟩ ⟨.part 0 .active, true, .engine_write⟩ :=
  race_of (by decide +kernel)

/-- Or taken back. -/
theorem C74_show_rollback :
    ∃ s, run (start (two [.show_] [.write [(5, .match_)] true])) (go 0 5 ++ go 1 8 ++ go 0 2) = .ok s ∧
    Race s ⟨.part 0 .active, false, .engine_show⟩ ⟨.part 0 .active, true, .engine_rollback⟩ :=
  race_of (by decide +kernel)

/-- A cursor reads the index of a partition in the cloud while a download reads it
again from the file. -/
theorem C74_cursor_download :
    ∃ s, run (start (two [.open_ 0 5] [.download 5 false])) (go 0 5 ++ go 1 7 ++ go 0 6) = .ok s ∧
    Race s ⟨.part 0 .index, false, .part_cursor⟩ ⟨.part 0 .index, true, .engine_download⟩ :=
  race_of (by decide +kernel)

/-- A write marks a partition for refresh while rebalancing looks at the mark. -/
theorem C74_rebalance :
    ∃ s, run (start (two [.rebalance 5] [.write [(5, .match_)] false])) (go 0 5 ++ go 1 8 ++ go 0 2) = .ok s ∧
    Race s ⟨.part 0 .refresh, true, .engine_rebalance⟩ ⟨.part 0 .refresh, false, .engine_commit⟩ :=
  race_of (by decide +kernel)

/-- A program that writes to the partition of its cursor gives the lock of the cursor
away: then another thread writes to the memtable that the cursor reads. -/
theorem C74_nested :
    ∃ s, run (start (two [.open_ 0 5, .write [(5, .match_)] false, .read 0] [.write [(6, .match_)] false]))
      (go 0 25 ++ go 1 6) = .ok s ∧
    Race s ⟨.part 0 .active, false, .part_cursor⟩ ⟨.part 0 .active, true, .engine_write⟩ ∧
    ¬ Known .part_cursor .engine_write .active ∧ ¬ Known .engine_write .part_cursor .active := by
  obtain ⟨s, e, h⟩ := race_of (prog := two [.open_ 0 5, .write [(5, .match_)] false, .read 0] [.write [(6, .match_)] false])
    (sched := go 0 25 ++ go 1 6) (x := ⟨.part 0 .active, false, .part_cursor⟩) (y := ⟨.part 0 .active, true, .engine_write⟩)
    (by decide +kernel)
  exact ⟨s, e, h, by simp [Known], by simp [Known]⟩

/-- The full property is false. -/
theorem C74_false : ¬ Full := by
  intro h
  obtain ⟨s, e, hr⟩ := C74_show_write
  refine h 2 _ ?_ _ ?_ s e _ _ hr
  · intro t
    match t with
    | 0 => simp [two, Proper]
    | 1 => simp [two, Proper]
    | n + 2 => simp [two, Proper]
  · exact lt_of_all (by decide +kernel)

/-! ### Examples -/

/-- Two threads that meet in the partition: one refreshes it, the other reads with two
cursors and writes to another partition. -/
def pair_ : Nat → List Call :=
  two [.fill 15 10 19, .open_ 0 5, .write [(12, .match_), (25, .create 20 29)] false, .read 0, .move 0 12, .open_ 1 5, .close 0, .close 1]
    [.refresh 5 .never, .dropFile 5 false, .upload 15 true, .drop 5 true]

def turns : List (Nat × Bool) := go 0 11 ++ (List.replicate 110 [(0, false), (1, false)]).flatten

theorem pair_proper (t : Nat) : Proper [] (pair_ t) := by
  match t with
  | 0 => simp [pair_, two, Proper]
  | 1 => simp [pair_, two, Proper]
  | n + 2 => simp [pair_, two, Proper]

theorem pair_quiet (t : Nat) : ∀ c ∈ pair_ t, Quiet c := by
  match t with
  | 0 => simp [pair_, two, Quiet]
  | 1 => simp [pair_, two, Quiet]
  | n + 2 => simp [pair_, two]

theorem pair_calm : Calm (start pair_) turns := calm_of _ (by decide +kernel)

example : ∃ s, run (start pair_) turns = .ok s ∧ ∀ x y, ¬ Race s x y :=
  C74_quiet 2 pair_ pair_proper turns (lt_of_all (by decide +kernel)) pair_calm pair_quiet

example : ∃ s, run (start pair_) turns = .ok s ∧ ∀ x y, Race s x y →
    ∃ p f, x.loc = .part p f ∧ (Known x.fn y.fn f ∨ Known y.fn x.fn f) :=
  C74_partial 2 pair_ pair_proper turns (lt_of_all (by decide +kernel)) pair_calm

example : ∃ s, run (start (two [.open_ 0 5, .read 0, .close 0, .show_] [.write [(5, .match_)] false, .rebalance 5]))
      (go 0 8 ++ go 1 5 ++ go 0 20 ++ go 1 30) = .ok s ∧ ∀ x y, Race s x y →
    ∃ p f, x.loc = .part p f ∧ (Known x.fn y.fn f ∨ Known y.fn x.fn f) := by
  refine C74_single 2 _ ?_ ?_ _ (lt_of_all (by decide +kernel))
  · intro t
    match t with
    | 0 => simp [two, Proper]
    | 1 => simp [two, Proper]
    | n + 2 => simp [two, Proper]
  · intro t
    match t with
    | 0 => simp [two, Single]
    | 1 => simp [two, Single]
    | n + 2 => simp [two, Single]

end Verif.C74
