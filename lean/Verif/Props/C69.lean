import Verif.Proofs.C69

/-! C69: closing ends all workers, and ends. -/
namespace Verif.C69
open Life

/-- For every history that starts the workers at most once, all of them, with any
number of workers, requests and failing actions, and any interleaving: nothing goes
wrong, nobody sleeps while there is work for them, and closing ends, with every
thread ended and joined. -/
theorem C69_partial (evs : List Event) (hl : Legal evs) (ht : InTime init evs) (hs : StartedOnce evs) :
    (∀ m, run init evs ≠ .ub m ∧ run init evs ≠ .abort m) ∧ ∀ e, run init evs = .ok e → Good e :=
  run_good evs false init inv_init hl ht hs.2 (by simpa using hs.1)

/-- A first opening that fails, then one with a worker and one for uploads; a request
is taken, handed over, and left over when the environment is closed. -/
def exampleRun : List Event :=
  [.open_ 1 1 .early, .open_ 1 1 .done, .look 1, .look 0, .add 7 [.refresh, .upload], .look 0, .turn 0 true, .turn 0 true,
   .close, .look 1, .look 0, .join, .join, .join]

example : Legal exampleRun ∧ StartedOnce exampleRun := by
  refine ⟨?_, by decide, ?_⟩
  · intro id as h; simp [exampleRun] at h; simp [h.2]
  · intro w u o h; simp [exampleRun] at h; rcases h with h | h <;> simp [h.2.2]

example : InTime init exampleRun := by
  refine ⟨by simp, fun e he => ?_⟩
  obtain rfl : init = e := by simpa [step, init, open_] using he
  refine ⟨by simp, fun e he => ?_⟩
  simp [step, init, open_, filters, start_loop] at he
  subst he
  refine ⟨by simp, fun e he => ?_⟩
  simp [step, look, Service.next, Service.init, Service.fetch, setPc, Res.bind] at he
  subst he
  refine ⟨by simp, fun e he => ?_⟩
  simp [step, look, Service.next, Service.init, Service.fetch, setPc, Res.bind] at he
  subst he
  refine ⟨by simp, fun e he => ?_⟩
  iterate 9 refine ⟨by simp, fun e he => ?_⟩
  trivial

/-- The end of it. -/
example : ∃ e, run init exampleRun = .ok e ∧ e.api = .closed ∧ e.threads = [⟨.withoutUpload, .joined⟩, ⟨.upload, .joined⟩] :=
  ⟨_, rfl, rfl, rfl⟩

/-- If memory for the workers could not be had, closing uses NULL, for every number
of workers. -/
theorem C69_malloc (w u : Nat) (h : 0 < w + u) : run init [.open_ w u .malloc, .close, .join] = .ub "workers is NULL" := by
  simp [run, step, init, open_, join, h, wakeAll, Res.bind]

/-- If the first thread could not be created, closing waits for a thread that does
not exist. -/
theorem C69_thread (w u : Nat) (h : 0 < w + u) :
    run init [.open_ w u (.thread 0), .close, .join] = .ub "pthread_join of a thread that was not created" := by
  have hl := filters_length w u
  cases hf : filters w u with
  | nil => rw [hf] at hl; simp at hl; omega
  | cons f fs => simp [run, step, init, open_, join, h, wakeAll, Res.bind, hf, start_loop]

/-- If the environment is opened twice (which is possible with two directories), the
first workers are left: they still run when the environment is gone. -/
theorem C69_twice : ∃ evs, Legal evs ∧ (∀ w u o, .open_ w u o ∈ evs → o = .done) ∧ run init evs = .ub "use after free" := by
  refine ⟨[.open_ 1 0 .done, .open_ 1 0 .done, .close, .look 1, .join, .join, .look 0], ?_, ?_, by decide⟩
  · intro id as h; simp at h
  · intro w u o h; simp at h; exact h.2.2

/-- So the full property is false of the code. -/
theorem C69_false : ¬ Full := by
  intro h
  have h1 := (h [.open_ 1 0 .malloc, .close, .join] (by intro id as h; simp at h) (by
    refine ⟨by simp, fun e _ => ⟨by simp, fun e _ => ⟨by simp, fun _ _ => trivial⟩⟩⟩)).1 "workers is NULL"
  exact h1.1 (C69_malloc 1 0 (by decide))

end Verif.C69
