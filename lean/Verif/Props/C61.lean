import Verif.Proofs.C61

/-! C61: a directory is used by one environment at a time, and is free again
when that one is closed. -/
namespace Verif.C61
open Directory

/-- Never two at a time: for every history of any number of processes and
handles, with opening failing anywhere, handles opened again and processes
ending at any moment. -/
theorem C61_exclusive (ops : List Op) : Exclusive (play {} [] ops).2 :=
  (inv_play ops _ _ inv_init).excl

/-- It is also enforced: who uses a directory keeps everybody else out. -/
theorem C61_kept_out (ops : List Op) (u : Use) (hu : u ∈ (play {} [] ops).2) (e d : Nat) (k : Luck) (hd : u.dir = d) :
    ((play {} [] ops).1.open_ e d k).2 ≠ .done ∧ ((play {} [] ops).1.open_ e d k).2 ≠ .failedInside := by
  obtain ⟨c, hc, h1, -, -, h2⟩ := (inv_play ops _ _ inv_init).hold u hu
  have hno : (play {} [] ops).1.canLock d ≠ true := fun h => canLock_true h c hc h1 (h2.trans hd)
  rcases open_cases (play {} [] ops).1 e d k with h | h | ⟨v, hf, h⟩ | ⟨v, lock, a, hf, h, hl⟩
  · rw [h]; simp
  · rw [h]; simp
  · rw [h]; simp
  · rcases hl with ⟨-, hcan, -⟩ | ⟨-, ha⟩
    · exact absurd hcan hno
    · rw [h]
      rcases ha with rfl | ⟨rfl, -⟩
      · simp
      · simp

/-- Both halves, when no handle is opened a second time: then opening is refused
as "in use" only while an environment that is not freed and whose process lives
has the directory.  Missing to the full property: handles that are opened again,
also after a first attempt that failed (see `C61_retry`, `C61_twice`). -/
theorem C61_once_partial (ops : List Op) (h : (opened ops).Nodup) :
    Exclusive (play {} [] ops).2 ∧ Available (play {} [] ops).1 (play {} [] ops).2 := by
  refine ⟨C61_exclusive ops, fun e d k hr => ?_⟩
  obtain ⟨c, hc, h1, h2⟩ := canLock_false (refused hr)
  obtain ⟨u, hu, -, -, h3⟩ := (tidy_play ops _ _ (tidy_init _) h).use c hc h2
  exact ⟨u, hu, h3.trans h1⟩

/-- Two processes and four handles: one is refused, its owner is freed, the
next gets in; the other process ends. -/
def history : List Op :=
  [.init 1, .init 2, .open_ 0 7 .fine, .open_ 1 7 .fine, .free 0, .init 1, .open_ 2 7 .later, .init 2, .open_ 3 8 .fine, .exit 2]

/-- Non-vacuity of the theorems. -/
example : (opened history).Nodup ∧ (play {} [] history).2 = [⟨2, 1, 7⟩] ∧
    ((play {} [] (history.take 3)).1.open_ 1 7 .fine).2 = .inUse ∧
    ((play {} [] (history.take 6)).1.open_ 2 7 .fine).2 = .done ∧
    (⟨2, 1, 7⟩ : Use) ∈ (play {} [] history).2 := by decide +kernel

/-- A handle whose first attempt failed inside cannot be used for a second one,
though nobody else has the directory: it is refused as in use by another
process. -/
theorem C61_retry :
    ((play {} [] [.init 1, .open_ 0 7 .later]).1.open_ 0 7 .fine).2 = .inUse ∧
    (play {} [] [.init 1, .open_ 0 7 .later]).2 = [⟨0, 1, 7⟩] := by decide +kernel

/-- After that attempt freeing the handle does not free the directory: no handle
of any process can open it until this process ends. -/
theorem C61_twice :
    let ops := [Op.init 1, .open_ 0 7 .fine, .open_ 0 7 .fine, .free 0, .init 1, .init 2]
    (play {} [] ops).2 = [] ∧ (play {} [] ops).1.envs.length = 2 ∧
    ((play {} [] ops).1.open_ 1 7 .fine).2 = .inUse ∧ ((play {} [] ops).1.open_ 2 7 .fine).2 = .inUse ∧
    ((play {} [] (ops ++ [.exit 1])).1.open_ 2 7 .fine).2 = .done := by decide +kernel

/-- A handle that is open can be opened again on another directory, and then has
both. -/
theorem C61_two_directories :
    ((play {} [] [.init 1, .open_ 0 7 .fine]).1.open_ 0 8 .fine).2 = .done ∧
    (play {} [] [.init 1, .open_ 0 7 .fine, .open_ 0 8 .fine]).2 = [⟨0, 1, 7⟩, ⟨0, 1, 8⟩] := by decide +kernel

/-- So the full property is false. -/
theorem C61_false : ¬ Full := by
  intro h
  obtain ⟨-, h⟩ := h [.init 1, .open_ 0 7 .fine, .open_ 0 7 .fine, .free 0, .init 1]
  obtain ⟨u, hu, -⟩ := h 1 7 .fine (by decide +kernel)
  have : (play {} [] [.init 1, .open_ 0 7 .fine, .open_ 0 7 .fine, .free 0, .init 1]).2 = [] := by decide +kernel
  rw [this] at hu
  cases hu

end Verif.C61
