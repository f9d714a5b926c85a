import Verif.Proofs.C71

/-! C71: no thread uses a partition or a reference that has been freed.

False in full: the partition locks are recursive, so a thread that has a cursor in a
partition and refreshes that partition itself frees what the cursor reads; and as the
first release gives a nested lock up, a refresh by a worker frees the partition of a
cursor whose thread has written to the same partition, or of a batch with two events
in one partition.  Proved for all runs in which no thread takes a lock that it already
has, and from that for programs with one cursor at a time, no other calls while it is
open, and single events. -/
namespace Verif.C71
open Access

/-- Any number of threads, any programs that use their cursors properly, any schedule
in which no thread takes a lock that it already has: nothing freed is used, nothing is
freed twice, and no lock is released that is not held. -/
theorem C71_partial (n : Nat) (prog : Nat → List Call) (hp : ∀ t, Proper [] (prog t))
    (sched : List (Nat × Bool)) (hn : ∀ x ∈ sched, x.1 < n) (hc : Calm (start prog) sched) :
    ∃ s, run (start prog) sched = .ok s :=
  run_calm sched (inv_start false n prog (fun t => chk_proper (prog t) at_zero (hp t))) hn hc

/-- Programs that have one cursor at a time, do nothing else meanwhile and write
events one by one: every schedule is safe. -/
theorem C71_single (n : Nat) (prog : Nat → List Call) (hp : ∀ t, Proper [] (prog t)) (hs : ∀ t, Single false (prog t))
    (sched : List (Nat × Bool)) (hn : ∀ x ∈ sched, x.1 < n) : ∃ s, run (start prog) sched = .ok s :=
  run_single sched (inv_start true n prog
    (fun t => chk_single (prog t) at_zero (hp t) (hs t) (fun _ => rfl) (by simp))) hn

/-- A batch into two partitions while a worker refreshes one and another thread drops
the other: no thread takes a lock twice. -/
def calmProg : Nat → List Call
  | 0 => [.write [(5, .create 0 9), (15, .create 10 19)] false, .open_ 0 0, .read 0, .move 0 10, .close 0]
  | 1 => [.refresh 5 .never, .look]
  | 2 => [.file 15 false, .drop 15 true]
  | _ => []

def calmSched : List (Nat × Bool) :=
  List.replicate 4 (0, false) ++ List.replicate 4 (1, false) ++ List.replicate 20 (0, false) ++
    List.replicate 9 (1, true) ++ List.replicate 6 (2, false) ++ List.replicate 20 (0, false) ++
    List.replicate 20 (1, true) ++ List.replicate 30 (2, true) ++ List.replicate 30 (0, true) ++ List.replicate 20 (2, true)

/-- Whether the next step nests. -/
def nestsB (s : State) (t : Nat) : Bool :=
  match (s.th t).todo with
  | .lock i ty :: _ =>
    match (s.th t).slot i with
    | some v => decide ((s.locks.lock (lockOf v.ref ty)).locker = some t)
    | none => false
  | _ => false

def calmB (s : State) : List (Nat × Bool) → Bool
  | [] => true
  | (t, w) :: l => ! nestsB s t && (match step s t w with | .ok s' => calmB s' l | _ => true)

theorem calm_of (l : List (Nat × Bool)) : ∀ s, calmB s l = true → Calm s l := by
  induction l with
  | nil => intro s _; trivial
  | cons x l ih =>
    intro s h
    obtain ⟨t, w⟩ := x
    simp only [calmB, Bool.and_eq_true, Bool.not_eq_true'] at h
    refine ⟨?_, ?_⟩
    · rintro ⟨i, ty, k, v, e1, e2, e3⟩
      have : nestsB s t = true := by unfold nestsB; rw [e1]; dsimp only; rw [e2]; simpa using e3
      rw [this] at h; cases h.1
    · intro s' e
      have h2 := h.2
      rw [e] at h2
      exact ih s' h2

set_option maxRecDepth 100000 in
example : (∀ t, Proper [] (calmProg t)) ∧ (∀ x ∈ calmSched, x.1 < 3) ∧ Calm (start calmProg) calmSched ∧
    (match run (start calmProg) calmSched with
     | .ok s => decide ((s.th 0).todo = [] ∧ (s.th 1).todo = [] ∧ (s.th 2).todo = [] ∧ s.mem.map.length = 1)
     | _ => false) = true := by
  refine ⟨?_, by decide +kernel, calm_of _ _ (by decide +kernel), by decide +kernel⟩
  intro t
  match t with
  | 0 => simp [calmProg, Proper]
  | 1 => simp [calmProg, Proper]
  | 2 => simp [calmProg, Proper]
  | _ + 3 => simp [calmProg, Proper]

/-- A program of one cursor and one write at a time, and a worker. -/
def singleProg : Nat → List Call
  | 0 => [.write [(5, .create 0 9)] false, .open_ 0 0, .read 0, .close 0, .write [(6, .create 0 9)] true]
  | 1 => [.refresh 5 .never, .look, .drop 5 true]
  | _ => []

example : (∀ t, Proper [] (singleProg t)) ∧ (∀ t, Single false (singleProg t)) := by
  constructor
  · intro t
    match t with
    | 0 => simp [singleProg, Proper]
    | 1 => simp [singleProg, Proper]
    | _ + 2 => simp [singleProg, Proper]
  · intro t
    match t with
    | 0 => simp [singleProg, Single]
    | 1 => simp [singleProg, Single]
    | _ + 2 => simp [singleProg, Single]

/-- An event is written, a cursor is opened, the partition is refreshed by the same
thread, and the cursor is read. -/
def own : Nat → List Call
  | 0 => [.write [(5, .create 0 9)] false, .open_ 0 5, .refresh 5 .never, .read 0]
  | _ => []

/-- The thread's own refresh frees the partition its cursor is in. -/
theorem C71_own : (∀ t, Proper [] (own t)) ∧
    run (start own) (List.replicate 31 (0, false)) = .ub "use of a freed partition" := by
  constructor
  · intro t
    match t with
    | 0 => simp [own, Proper]
    | _ + 1 => simp [own, Proper]
  · rfl

/-- A thread with a cursor writes into the partition of the cursor; a worker refreshes. -/
def update : Nat → List Call
  | 0 => [.write [(5, .create 0 9)] false, .open_ 0 5, .write [(5, .create 0 9)] false, .read 0]
  | 1 => [.refresh 5 .never]
  | _ => []

/-- The write gives the lock of the cursor up; the worker frees the partition. -/
theorem C71_update : (∀ t, Proper [] (update t)) ∧
    run (start update) (List.replicate 23 (0, false) ++ List.replicate 16 (1, false) ++ [(0, false)]) =
      .ub "use of a freed partition" := by
  constructor
  · intro t
    match t with
    | 0 => simp [update, Proper]
    | 1 => simp [update, Proper]
    | _ + 2 => simp [update, Proper]
  · rfl

/-- One write of two events into one partition; a worker refreshes. -/
def batch : Nat → List Call
  | 0 => [.write [(5, .create 0 9), (6, .create 0 9)] false]
  | 1 => [.refresh 5 .never]
  | _ => []

/-- The commit of the first event gives the lock up; the worker frees the partition
while the second is committed. -/
theorem C71_batch : (∀ t, Proper [] (batch t)) ∧
    run (start batch) (List.replicate 15 (0, false) ++ List.replicate 16 (1, false) ++ [(0, false)]) =
      .ub "use of a freed partition" := by
  constructor
  · intro t
    match t with
    | 0 => simp [batch, Proper]
    | 1 => simp [batch, Proper]
    | _ + 2 => simp [batch, Proper]
  · rfl

theorem C71_false : ¬ Full := by
  intro h
  obtain ⟨s, e⟩ := h 1 own C71_own.1 (List.replicate 31 (0, false)) (by simp)
  rw [C71_own.2] at e
  cases e

end Verif.C71
