import Verif.Proofs.C72

/-! C72: the log tells what the threads did. -/
namespace Verif.C72
open Interleave

/-- However threads take turns, a reader finds in a partition what the log tells at
that moment, and in the end memory has what the log tells: if the events of every
batch are in different partitions, and no other thread touches a partition that a
thread drops.  Missing from the full property: batches with several events in one
partition, and drops of partitions that others use; it is false then (`C72_batch`,
`C72_drop`). -/
theorem C72_partial (iv n : Nat) (prog : Nat → List Call) (sched : List (Nat × Bool)) (hs : ∀ x ∈ sched, x.1 < n)
    (apart : ∀ t, ∀ c ∈ prog t, Apart iv c) (own : Own iv prog) :
    ∃ s, run iv (start iv prog) sched = .ok s ∧ Sound iv s := by
  have hB : ∀ t u p, Call.drop p ∈ prog t → (∃ c ∈ prog u, Touches iv p c) → t = u := by
    intro t u p h ⟨c, h1, h2⟩
    exact own t u p c h h1 h2
  obtain ⟨s, h1, d, a, R, h2⟩ := run_inv (A := fun u p => ∃ c ∈ prog u, Touches iv p c)
    (B := fun t p => Call.drop p ∈ prog t) hB sched (start iv prog) hs
    ⟨_, _, _, start_inv (fun t => chk_prog (prog t) (apart t) (fun c hc p hp => ⟨c, hc, hp⟩) (fun p hp => hp))⟩
  exact ⟨s, h1, inv_sound h2 hB⟩

/-- Without drops nothing is asked but that the events of a batch are in different
partitions. -/
theorem C72_writes (iv n : Nat) (prog : Nat → List Call) (sched : List (Nat × Bool)) (hs : ∀ x ∈ sched, x.1 < n)
    (apart : ∀ t, ∀ c ∈ prog t, Apart iv c) (nodrop : ∀ t p, Call.drop p ∉ prog t) :
    ∃ s, run iv (start iv prog) sched = .ok s ∧ Sound iv s :=
  C72_partial iv n prog sched hs apart (fun t _ p _ h => absurd h (nodrop t p))

/-- Events for the examples; partitions of ten ids. -/
def ev (id : Nat) (v : UInt8) : Event := ⟨id, 0, [], [v]⟩

/-- Thread `t` makes so many steps. -/
def turns (t n : Nat) : List (Nat × Bool) := List.replicate n (t, false)

/-- Two writers over the same partitions, one batch fails; a reader; one thread
drops a partition of its own. -/
def mixed : Nat → List Call
  | 0 => [.write [ev 1 1, ev 11 1], .write [ev 21 7], .drop 20]
  | 1 => [.write [ev 11 2, ev 1 2], .fail [ev 2 2, ev 11 9]]
  | 2 => [.scan 0 2]
  | _ => []

def mixedSched : List (Nat × Bool) :=
  turns 0 6 ++ turns 1 2 ++ turns 2 2 ++ turns 0 3 ++ turns 2 1 ++ turns 0 2 ++ turns 1 7 ++ turns 2 4 ++ turns 1 9 ++
    turns 2 4 ++ turns 1 9 ++ turns 0 10 ++ turns 2 5 ++ turns 1 9 ++ turns 0 4

example : (∀ x ∈ mixedSched, x.1 < 3) ∧ (∀ t, ∀ c ∈ mixed t, Apart 10 c) ∧ Own 10 mixed := by
  refine ⟨by decide, ?_, ?_⟩
  · intro t c hc
    rcases t with _ | _ | _ | t <;> simp only [mixed, List.mem_cons, List.not_mem_nil, or_false] at hc
    · rcases hc with e | e | e <;> subst e <;> simp only [Apart] <;> decide
    · rcases hc with e | e <;> subst e <;> simp only [Apart] <;> decide
    · subst hc; trivial
  · intro t u p c h1 h2 h3
    have : t = 0 ∧ p = 20 := by
      rcases t with _ | _ | _ | t <;> simp [mixed] at h1
      exact ⟨rfl, h1⟩
    obtain ⟨e1, e2⟩ := this
    subst e1 e2
    rcases u with _ | _ | _ | u
    · rfl
    · simp only [mixed, List.mem_cons, List.not_mem_nil, or_false] at h2
      rcases h2 with e | e <;> subst e <;> simp only [Touches] at h3 <;> exact absurd h3 (by decide)
    · simp only [mixed, List.mem_cons, List.not_mem_nil, or_false] at h2
      subst h2
      simp only [Touches] at h3
      cases h3
    · simp [mixed] at h2

/-- In that run the threads come to their end, four records are in the log. -/
example : ∃ s, run 10 (start 10 mixed) mixedSched = .ok s ∧ (s.th 0).todo = [] ∧ (s.th 1).todo = [] ∧
    (s.th 2).todo = [] ∧ s.log.length = 4 ∧ s.mem (11, []) = some (ev 11 2) ∧ s.mem (2, []) = none :=
  ⟨_, rfl, by decide +kernel⟩

/-- Thread 0 writes two events of one partition in a batch, then another batch;
thread 1 writes one event. -/
def nested : Nat → List Call
  | 0 => [.write [ev 1 1, ev 2 1], .write [ev 5 8]]
  | 1 => [.write [ev 5 9]]
  | _ => []

/-- The first release of the batch gives the lock up, thread 1 takes it and sets its
event; the second release gives the lock of thread 1 up, and thread 0 sets and logs
the same event before thread 1 has logged its own. -/
def nestedSched : List (Nat × Bool) := turns 0 9 ++ turns 1 3 ++ turns 0 8 ++ turns 1 3

/-- A batch with two events in one partition: readers see what thread 0 wrote last,
after a restart there is what thread 1 wrote before. -/
theorem C72_batch : ∃ s, run 10 (start 10 nested) nestedSched = .ok s ∧ (∀ t, (s.th t).todo = []) ∧
    s.mem (5, []) = some (ev 5 8) ∧ Dur.version 10 (5, []) s.log = some (ev 5 9) := by
  refine ⟨_, rfl, ?_, by decide +kernel, by decide +kernel⟩
  intro t
  rcases t with _ | _ | t <;> rfl

/-- Thread 0 writes an event twice, thread 1 drops the partition. -/
def dropping : Nat → List Call
  | 0 => [.write [ev 1 1], .write [ev 2 2]]
  | 1 => [.drop 0]
  | _ => []

/-- The second write comes after the partition was removed and before that is logged. -/
def droppingSched : List (Nat × Bool) := turns 0 6 ++ turns 1 3 ++ turns 0 6 ++ turns 1 1

/-- A drop while another thread writes: the event is there and its write has
returned, after a restart it is lost. -/
theorem C72_drop : ∃ s, run 10 (start 10 dropping) droppingSched = .ok s ∧ (∀ t, (s.th t).todo = []) ∧
    s.mem (2, []) = some (ev 2 2) ∧ Dur.version 10 (2, []) s.log = none := by
  refine ⟨_, rfl, ?_, by decide +kernel, by decide +kernel⟩
  intro t
  rcases t with _ | _ | t <;> rfl

/-- The full property is false. -/
theorem C72_false : ¬ Full := by
  intro h
  obtain ⟨s, h1, h2⟩ := h 10 2 nested nestedSched (by decide)
  obtain ⟨s', g1, g2, g3, g4⟩ := C72_batch
  rw [h1] at g1
  cases g1
  have := h2.fin g2 (5, [])
  unfold Agrees at this
  rw [g3, g4] at this
  exact absurd this (by decide)

end Verif.C72
