import Verif.Proofs.C50

/-! C50: cleanup handlers run exactly once, innermost first. -/
namespace Verif.C50
open Exc

/-- A program under a catch point, with any nesting of blocks, catch points,
handlers that throw again, and cancelled cleanups, behaves as it means. -/
theorem C50_cleanups : Full := by
  intro p l o hm
  obtain ⟨s1, g1, g2⟩ := exec_ok p init.enter [] [] [] ⟨false, none⟩ [] l o
    ⟨rfl, rfl, rfl, List.nodup_nil, by simp, by simp⟩ hm
  have hlog : s1.log = l := by
    have := g2.log
    cases o <;> simpa [fns, enter, init] using this
  have hfr := g2.frames
  cases o with
  | true =>
    simp only [if_true] at hfr
    refine ⟨{ s1 with frames := [] }, ?_, hlog, rfl⟩
    unfold exec
    rw [g1, Res.bind_ok]
    have : s1.leave = .ok ({ s1 with frames := [] }, true) := by unfold leave; rw [hfr]
    dsimp only
    rw [this, Res.bind_ok]
    rfl
  | false =>
    simp only [Bool.false_eq_true, if_false] at hfr
    obtain ⟨q, hq, _⟩ := hfr
    refine ⟨{ s1 with frames := [] }, ?_, hlog, rfl⟩
    unfold exec
    rw [g1, Res.bind_ok]
    have : s1.leave = .ok ({ s1 with frames := [] }, false) := by unfold leave; rw [hq]
    dsimp only
    rw [this, Res.bind_ok]
    rfl

/-- In particular an error in the middle of nested blocks runs every active
cleanup once, innermost first, and nothing else. -/
theorem C50_error (f1 f2 f3 : Nat) (k : GProg) :
    ∃ s, exec (.tryCatch (.guard f1 (.guard f2 (.block (.guard f3 .throw) k))) .done .done) init [] = .ok (s, false) ∧
      s.log = [.ran f3, .ran f2, .ran f1] := by
  obtain ⟨s, h1, h2, _⟩ := C50_cleanups (.guard f1 (.guard f2 (.block (.guard f3 .throw) k))) [.ran f3, .ran f2, .ran f1] true rfl
  exact ⟨s, h1, h2⟩

/-- A program with a meaning: a lock taken, an inner catch that cleans up and
throws again, a cancelled cleanup. -/
example : meaning (.guard 1 (.act 10 (.tryCatch (.guard 2 (.guard 3 (.unguard (.act 11 .throw)))) (.act 12 .throw) .done))) [] =
    some ([.did 10, .did 11, .ran 2, .did 12, .ran 1], true) := rfl
example : meaning (.guard 1 (.block (.guard 2 (.act 5 .done)) (.act 6 .done))) [] =
    some ([.did 5, .ran 2, .did 6, .ran 1], false) := rfl

end Verif.C50
