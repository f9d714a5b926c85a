import Verif.Proofs.C27b

/-! C27: a crash during refresh loses nothing. -/
namespace Verif.C27
open Files

/-- C27, for histories in which no operation ends with an error while the process
goes on: refreshes, moves, uploads, downloads and drops, each of them complete or
cut off by a crash after any number of its steps, and restarts cut off the same
way.  After them the database is open, a complete version is stored, and the next
event - say a refresh that is cut off - leads to a state in which the database
opens with the old or the new version, complete.  Missing from C27 in full are
histories in which an operation failed; see `C27_false`. -/
theorem C27_partial (order : List Nat) (hn : order.Nodup) (h : List Event) (hk : ∀ e ∈ h, Known order e) (he : ∀ e ∈ h, NoError e)
    (e : Event) (hke : Known order e) (hee : NoError e) :
    ∃ w v w', run order start h = some w ∧ Stored w v ∧ step order w e = some w' ∧ Sound w v w' e := by
  obtain ⟨w, v, hw, hr⟩ := run_rest hn h (start_rest order) hk he
  obtain ⟨w', v', hs, _, hsd⟩ := step_rest hn hr e hke hee
  exact ⟨w, v, w', hw, rest_stored hr, hs, hsd⟩

/-- The state after such a history stands for one version only. -/
theorem C27_version (w : World) (v v' : Option Nat) (h : Stored w v) (h' : Stored w v') : v = v' := stored_unique h h'

/-- Three storages: a partition is created, refreshed twice, moved with a crash
after the old file is unlinked, restarted with a crash, uploaded, its local copy
dropped, and downloaded with a crash. -/
def goodHistory : List Event :=
  [.done (.create 0), .done (.refresh none 1 false), .crash (.refresh none 2 true) 4 [0, 1], .crash (.refresh (some 2) 3 false) 5 [1, 0],
   .done .upload, .done (.drop false true), .crash .download 3 []]

example : [0, 1, 2].Nodup ∧ (∀ e ∈ goodHistory, Known [0, 1, 2] e) ∧ (∀ e ∈ goodHistory, NoError e) ∧
    Known [0, 1, 2] (.crash .download 4 []) ∧ (run [0, 1, 2] start goodHistory).map content = some (some (full 3)) := by
  refine ⟨by decide, ?_, ?_, trivial, by decide +kernel⟩
  · intro e he
    simp [goodHistory] at he
    rcases he with rfl | rfl | rfl | rfl | rfl | rfl | rfl <;> simp [Known, Exists]
  · intro e he
    simp [goodHistory] at he
    rcases he with rfl | rfl | rfl | rfl | rfl | rfl | rfl <;> trivial

/-- The crash after the old file of a move is unlinked: the new version. -/
example : (run [0, 1] start [.done (.create 0), .done (.refresh none 1 false), .crash (.refresh (some 1) 2 false) 5 []]).map content =
    some (some (full 2)) := by decide +kernel

/-- The same before it is: the old version. -/
example : (run [0, 1] start [.done (.create 0), .done (.refresh none 1 false), .crash (.refresh (some 1) 2 false) 4 []]).map content =
    some (some (full 1)) := by decide +kernel

/-! Operations that fail. -/

/-- A failed upload leaves `.cloud.incomplete` behind, DROP PARTITION removes only
the file, and the database does not open any more. -/
theorem C27_false_upload :
    ∃ w, run [0] start [.done (.create 0), .done (.refresh none 1 false), .error .upload 3, .done (.drop true true)] = some w ∧
      step [0] w (.restart []) = none :=
  ⟨_, rfl, by decide +kernel⟩

/-- A failed refresh leaves `.incomplete` behind, an upload succeeds, and the
database does not open any more. -/
theorem C27_false_merge :
    ∃ w, run [0] start [.done (.create 0), .done (.refresh none 1 false), .error (.refresh none 2 false) 1, .done .upload] = some w ∧
      step [0] w (.restart []) = none :=
  ⟨_, rfl, by decide +kernel⟩

/-- A failed move leaves `.incomplete` behind; a crash in a later move to another
storage, and the database does not open any more. -/
theorem C27_false_move :
    ∃ w, run [0, 1, 2] start [.done (.create 0), .done (.refresh none 1 false), .error (.refresh (some 2) 2 false) 1] = some w ∧
      step [0, 1, 2] w (.crash (.refresh (some 1) 2 false) 5 []) = none :=
  ⟨_, rfl, by decide +kernel⟩

/-- The file of a failed refresh is longer than that of the next, which succeeds:
the old bytes stay behind its footer, and the database does not open any more. -/
theorem C27_false_leftover :
    ∃ w, run [0] start [.done (.create 0), .done (.refresh none 1 false), .error (.refresh none 2 false) 1, .done (.refresh none 3 true)] = some w ∧
      step [0] w (.restart []) = none :=
  ⟨_, rfl, by decide +kernel⟩

/-- A refresh fails when it is to unlink the old file: the new version has taken
its place in memory and is read, a restart returns to the old. -/
theorem C27_false_unlink :
    ∃ w, run [0] start [.done (.create 0), .done (.refresh none 1 false), .error (.refresh none 2 false) 4] = some w ∧
      Stored w (some 2) ∧ ∃ w', step [0] w (.restart []) = some w' ∧ Stored w' (some 1) :=
  ⟨_, rfl, rfl, _, rfl, rfl⟩

/-- DROP PARTITION ... ON STORAGE fails to unlink the file: it is closed, and
nothing can be read of it. -/
theorem C27_false_closed :
    ∃ w, run [0] start [.done (.create 0), .done (.refresh none 1 false)] = some w ∧ Stored w (some 1) ∧
      ∃ w', step [0] w (.error (.drop false true) 1) = some w' ∧ (w'.disk 0).id = some (full 1) ∧
        w'.mem = some { storage := 0, id := true, closed := true } :=
  ⟨_, rfl, rfl, _, rfl, rfl, rfl⟩

theorem C27_false : ¬ Full := by
  intro hf
  obtain ⟨w, v, w', hw, _, hs, _⟩ := hf [0] (by decide) [.done (.create 0), .done (.refresh none 1 false), .error .upload 3, .done (.drop true true)]
    (by intro e he; simp at he; rcases he with rfl | rfl | rfl | rfl <;> simp [Known, Exists]) (.restart []) trivial
  obtain ⟨x, hx, hn⟩ := C27_false_upload
  rw [hx] at hw
  cases hw
  rw [hn] at hs
  cases hs

end Verif.C27
