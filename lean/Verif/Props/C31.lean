import Verif.Proofs.C31

/-! C31: partition locks. -/
namespace Verif.C31
open Locks

/-- Partial: any number of threads, locks and spurious wake-ups, any schedule, as
long as no thread takes a lock it already holds.  Missing: nested use, for which
the claim is false (below). -/
theorem C31_locks_partial (n : Nat) (es : List Ev) (s : St) (h : run n false init es = some s) : Good s := by
  have hi := inv_run es init s (inv_init n) h
  constructor
  · intro p t u ht hu
    have h1 := (hi.holder t p).2 (by have := hi.atmost t p; omega)
    have h2 := (hi.holder u p).2 (by have := hi.atmost u p; omega)
    rw [h1] at h2
    exact Option.some.inj h2
  · intro t p hw
    cases hl : (s.locks.lock p).locker with
    | none => exact absurd hl (hi.base.free t p hw)
    | some u =>
      refine ⟨u, ?_, by rw [(hi.holder u p).1 hl]; omega⟩
      rintro rfl
      exact hi.base.notown u p false hw hl

/-- Even with nested use no wake-up is lost: a thread that has not been woken
sleeps only while its lock is marked as taken. -/
theorem C31_no_lost_wakeup (n : Nat) (es : List Ev) (s : St) (h : run n true init es = some s)
    (t p : Nat) (hw : s.locks.wait t = some (p, false)) : (s.locks.lock p).locker ≠ none := by
  have : ∀ (es : List Ev) (s s' : St), Base n s.locks → run n true s es = some s' → Base n s'.locks := by
    intro es
    induction es with
    | nil => intro s s' h e; cases e; exact h
    | cons e es ih =>
      intro s s' hb hr
      rw [run] at hr
      cases hs : step n true s e with
      | none => rw [hs] at hr; cases hr
      | some s1 =>
        rw [hs] at hr
        refine ih s1 s' ?_ hr
        cases e with
        | lock t p =>
          simp only [step] at hs
          split at hs
          · rename_i hc; cases hs; exact base_lock hb t p hc.2.1 hc.1
          · cases hs
        | wake t =>
          simp only [step] at hs
          cases hw : s.locks.wait t with
          | none => rw [hw] at hs; cases hs
          | some x => rw [hw] at hs; cases hs; exact base_wake hb t x.1 x.2 hw
        | unlock t p =>
          simp only [step] at hs
          split at hs
          · cases hs; exact base_unlock hb p
          · cases hs
  exact (this es init s (base_init n) h).free t p hw

/-- A batch of two events on one partition (thread 0 locks twice) while threads 1
and 2 use the partition: in the end 1 and 2 hold the lock together. -/
def batchOfTwo : List Ev :=
  [.lock 0 7, .lock 0 7, .unlock 0 7, .lock 1 7, .unlock 0 7, .lock 2 7]

theorem C31_two_holders :
    ∃ s, run 3 true init batchOfTwo = some s ∧ s.depth 1 7 = 1 ∧ s.depth 2 7 = 1 := ⟨_, rfl, rfl, rfl⟩

theorem C31_locks_false : ¬ Full := by
  intro h
  obtain ⟨s, h1, h2, h3⟩ := C31_two_holders
  have := (h 3 batchOfTwo s h1).exclusive 7 1 2 (by omega) (by omega)
  omega

/-- A schedule that meets the hypotheses, with a thread that waits and is woken. -/
example : ∃ s, run 2 false init
    [.lock 0 7, .lock 1 7, .wake 1, .lock 0 8, .unlock 0 7, .wake 1, .unlock 0 8] = some s ∧
    s.depth 1 7 = 1 ∧ s.depth 0 7 = 0 := ⟨_, rfl, rfl, rfl⟩

end Verif.C31
