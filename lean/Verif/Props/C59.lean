import Verif.Proofs.C59Calls

/-! C59: operations of any kind, in any threads, cannot deadlock. -/
namespace Verif.C59

/-- Partial: any number of threads that visit partitions upwards, under any
schedule, with a control lock that lets readers pass.  Batches, cursors, refreshes,
drops, transfers and changes of the configuration may be mixed freely.  Missing:
threads that go downwards, that run a service operation on the partition of their
own cursor, or that change the configuration with an open cursor, for which the
claim is false (below); control locks that put writers first (next theorem). -/
theorem C59_upwards_partial (n : Nat) (prog : Nat → List Call) (h : ∀ t, t < n → Upwards [] (prog t)) :
    NoDeadlock false n prog :=
  no_deadlock false n prog (fun t ht => upwards_ok _ _ (h t ht))

/-- Partial: whichever way the control lock treats waiting writers, threads that
never ask twice for it cannot deadlock.  Missing: batches of several events, SHOW
STORAGES and PARTITIONS and calls beside an open cursor, for which it is false
(below). -/
theorem C59_single_partial (first : Bool) (n : Nat) (prog : Nat → List Call) (h : ∀ t, t < n → Single [] (prog t)) :
    NoDeadlock first n prog :=
  no_deadlock first n prog (fun t ht => single_ok first _ _ (h t ht))

/-- Threads of which none can move. -/
theorem stuck {first : Bool} {n : Nat} {s : Threads} (h : ∀ t, t < n → s.step first t false = .ok s) :
    ∀ more : List (Nat × Bool), (∀ e ∈ more, e.2 = false) → run first n s more = .ok s := by
  intro more
  induction more with
  | nil => intro _; rfl
  | cons e more ih =>
    intro hm
    obtain ⟨t, b⟩ := e
    have hb : b = false := hm (t, b) (by simp)
    subst hb
    rw [run]
    split
    · rename_i ht
      rw [h t ht]
      exact ih (fun e he => hm e (by simp [he]))
    · exact ih (fun e he => hm e (by simp [he]))

theorem deadlock {first : Bool} {n : Nat} {prog : Nat → List Call} (sched : List (Nat × Bool)) (s : Threads)
    (hs : run first n (start prog) sched = .ok s) (h : ∀ t, t < n → s.step first t false = .ok s)
    (t : Nat) (ht : t < n) (hne : s.rest t ≠ []) : ¬ NoDeadlock first n prog := by
  intro hd
  obtain ⟨s1, e1, more, hm, s2, e2, e3⟩ := hd sched
  rw [hs] at e1
  cases e1
  rw [stuck h more hm] at e2
  cases e2
  exact hne (e3 t ht)

/-- One thread opens a cursor, runs SET (or CHECKPOINT, or DROP PARTITION), closes
the cursor. -/
def waits (_ : Nat) : List Call := [.openCursor 1, .change, .closeCursor 1]

/-- A thread with an open cursor that changes anything waits for itself. -/
theorem C59_cursor_change : ¬ NoDeadlock false 1 waits := by
  refine deadlock [(0, false), (0, false), (0, false)] _ rfl ?_ 0 (by decide) (by decide)
  intro t ht
  have : t = 0 := by omega
  subst this
  rfl

/-- A thread with a cursor in partition 1 runs REFRESH PARTITION 1 while the
worker refreshes it, too. -/
def service (t : Nat) : List Call := if t = 0 then [.openCursor 1, .refresh 1, .closeCursor 1] else [.refresh 1]

/-- They wait for each other. -/
theorem C59_cursor_refresh : ¬ NoDeadlock false 2 service := by
  refine deadlock [(1, false), (1, false), (0, false), (0, false), (0, false), (0, false), (1, false)] _ rfl ?_ 0
    (by decide) (by decide)
  intro t ht
  have : t = 0 ∨ t = 1 := by omega
  rcases this with rfl | rfl <;> rfl

/-- The full property does not hold, even if readers pass waiting writers. -/
theorem C59_readers_false : ¬ FullReaders := by
  intro h
  refine C59_cursor_change (h 1 waits ?_)
  intro t _
  simp [waits, Proper]

theorem C59_false : ¬ Full := fun h => C59_readers_false (fun n prog => h false n prog)

/-- A batch of two events beside a SET. -/
def batch (t : Nat) : List Call := if t = 0 then [.write [1, 2]] else [.change]

/-- If the control lock puts waiting writers first, a batch of two events and a
SET wait for each other, although both visit partitions upwards. -/
theorem C59_writers_first : (∀ t, Upwards [] (batch t)) ∧ ¬ NoDeadlock true 2 batch := by
  constructor
  · intro t
    unfold batch
    split <;> simp [Upwards]
  · refine deadlock [(0, false), (0, false), (1, false), (0, false)] _ rfl ?_ 0 (by decide) (by decide)
    intro t ht
    have : t = 0 ∨ t = 1 := by omega
    rcases this with rfl | rfl <;> rfl

/-- So do SHOW STORAGES and a SET. -/
def shows (t : Nat) : List Call := if t = 0 then [.showAll] else [.change]

theorem C59_writers_first_show : ¬ NoDeadlock true 2 shows := by
  refine deadlock [(0, false), (1, false), (0, false)] _ rfl ?_ 0 (by decide) (by decide)
  intro t ht
  have : t = 0 ∨ t = 1 := by omega
  rcases this with rfl | rfl <;> rfl

/-- Four threads that meet the hypotheses: a reader that also writes, a service
worker, an administrator, a writer of a failing batch. -/
def office (t : Nat) : List Call :=
  if t = 0 then [.openCursor 1, .write [1, 2, 2, 7], .moveCursor 1 3, .showAll, .refresh 4, .closeCursor 3, .change]
  else if t = 1 then [.refresh 1, .file 2, .change, .nothing 3]
  else if t = 2 then [.showAll, .change, .visit 1, .file 1, .change]
  else [.writeFailed [1, 2, 3], .look]

example : ∀ t, t < 4 → Upwards [] (office t) := by
  intro t ht
  have : t = 0 ∨ t = 1 ∨ t = 2 ∨ t = 3 := by omega
  rcases this with rfl | rfl | rfl | rfl <;> simp [office, Upwards]
/-- And the worker does wait for the reader. -/
example : ∃ s, run false 4 (start office) [(0, false), (0, false), (1, false), (1, false), (1, false)] = .ok s ∧
    s.locks.wait 1 = some (3, false) := ⟨_, rfl, rfl⟩
example : ∀ t, t < 3 → Single [] ((fun t => if t = 0 then [.openCursor 1, .moveCursor 1 2, .closeCursor 2, .change]
    else if t = 1 then [.write [2], .refresh 1] else [.file 1, .change, .look]) t) := by
  intro t ht
  have : t = 0 ∨ t = 1 ∨ t = 2 := by omega
  rcases this with rfl | rfl | rfl <;> simp [Single]

end Verif.C59
