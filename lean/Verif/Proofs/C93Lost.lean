import Verif.Spec.C93

/-! Rotations of the log that fail, any number of them. -/
namespace Verif.C93
open Verif.Descr Verif.Spec.C93

/-- A directory with nothing in it. -/
def dirNone : Start := { config := false, log := false, parts := [], wal := true, walFiles := 0, sync := true, workers := 0 }

/-- The environment after `k` rotations that failed: the lock, the log and the files
nobody holds are open. -/
structure Rotated (k : Nat) (w : World) : Prop where
  workers : w.workers = 0
  refs : w.refs = []
  log : w.files .log = none
  held : ∃ a b, w.files .wal = some a ∧ w.files .lock = some b ∧ a ∈ w.fds ∧ b ∈ w.fds ∧ a ≠ b
  fds : w.fds.length = k + 2
  new : ∀ d ∈ w.fds, d < w.next

theorem rotate_step {k : Nat} {w : World} (h : Rotated k w) :
    ∃ w', step w (.rotate true) [true, false] = some (w', true) ∧ Rotated (k + 1) w' := by
  obtain ⟨a, b, h1, h2, h3, h4, h5⟩ := h.held
  refine ⟨_, rfl, h.workers, h.refs, h.log, ⟨w.next, b, rfl, h2, ?_, ?_, ?_⟩, ?_, ?_⟩
  · exact List.mem_cons_self
  · exact List.mem_cons_of_mem _ h4
  · have := h.new b h4
    omega
  · show (w.next :: w.fds).length = _
    rw [List.length_cons, h.fds]
  · intro d hd
    show d < w.next + 1
    rcases List.mem_cons.1 (show d ∈ w.next :: w.fds from hd) with rfl | hd
    · omega
    · have := h.new d hd
      omega

theorem rotate_steps : ∀ (n k : Nat) (w : World), Rotated k w →
    ∃ w', (∀ t, runs w (List.replicate n (.rotate true, [true, false]) ++ t) =
      (runs w' t).map fun x => (x.1, List.replicate n true ++ x.2)) ∧ Rotated (k + n) w' := by
  intro n
  induction n with
  | zero => intro k w h; exact ⟨w, fun t => by simp, h⟩
  | succ n ih =>
    intro k w h
    obtain ⟨w1, s1, h1⟩ := rotate_step h
    obtain ⟨w2, s2, h2⟩ := ih (k + 1) w1 h1
    refine ⟨w2, fun t => ?_, by rw [show k + (n + 1) = k + 1 + n by omega]; exact h2⟩
    rw [List.replicate_succ, List.cons_append, runs, s1]
    show Option.map _ (runs w1 _) = _
    rw [s2, Option.map_map]
    rfl

theorem free_step {k : Nat} {w : World} (h : Rotated k w) :
    ∃ w', step w .free [] = some (w', false) ∧ w'.fds.length = k := by
  obtain ⟨a, b, h1, h2, h3, h4, h5⟩ := h.held
  have hb : b ∈ w.fds.erase a := (List.mem_erase_of_ne (Ne.symm h5)).2 h4
  refine ⟨put .walPrev none (put .lock none { put .wal none { forgetStored { w with io := [], workers := 0, refs := [] } with
    fds := w.fds.erase a } with fds := (w.fds.erase a).erase b }), ?_, ?_⟩
  · have e1 : stopWorkers w.workers { w with io := [] } = .ok () { w with io := [] } := by rw [h.workers]; rfl
    have e2 : closeParts w.refs { w with io := [], workers := 0 } = .ok () { w with io := [], workers := 0 } := by rw [h.refs]; rfl
    have e3 : fileClose .log { w with io := [], workers := 0, refs := [] } = .ok () { w with io := [], workers := 0, refs := [] } := by
      simp [fileClose, h.log]
    have e4 : fileClose .wal (forgetStored { w with io := [], workers := 0, refs := [] }) =
        .ok () (put .wal none { forgetStored { w with io := [], workers := 0, refs := [] } with fds := w.fds.erase a }) := by
      simp [fileClose, forgetStored, h1, h3]
    have e5 : fileClose .lock (put .wal none { forgetStored { w with io := [], workers := 0, refs := [] } with fds := w.fds.erase a }) =
        .ok () (put .lock none { put .wal none { forgetStored { w with io := [], workers := 0, refs := [] } with
          fds := w.fds.erase a } with fds := (w.fds.erase a).erase b }) := by
      simp [fileClose, forgetStored, put, h2, hb]
    have e : free { w with io := [] } = .ok () (put .lock none { put .wal none { forgetStored { w with io := [], workers := 0, refs := [] } with
          fds := w.fds.erase a } with fds := (w.fds.erase a).erase b }) := by
      simp only [free, bind, M.bind, modify_, e1, e2, e3, e4, e5]
    simp only [step, run, e]
  · show ((w.fds.erase a).erase b).length = k
    rw [List.length_erase_of_mem hb, List.length_erase_of_mem h3, h.fds]
    omega

end Verif.C93
