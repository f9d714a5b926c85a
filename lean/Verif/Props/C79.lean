import Verif.Proofs.C79Write

/-!
C79. Every lock is given back, whatever fails.  False for three steps that may fail
while a lock is held which nothing gives back (`leaks`), for the crashes of a rollback
(`crashes`, C09) and for a batch without events; everything else is proved.
-/
namespace Verif.C79
open Verif.Hold

/-- A call of the library, with any of its steps failing but those in `leaks`: it ends
with the locks it began with, and took its locks in their order.  It never waits for
itself, and it crashes only if a step in `crashes` fails.  Missing from `Full`: `leaks`,
`crashes`, and batches without events. -/
theorem C79_given_back_partial (w : World) (c : Call) (s : St) (hf : Fit c s.held) (ho : Orderly s.acts)
    (hc : c ≠ .write 0) (hl : Spared leaks w) :
    match call c w s with
    | .ok _ s' => s'.held.Perm s.held ∧ Orderly s'.acts
    | .spin => True
    | .ub _ => ¬ Spared crashes w
    | _ => False := by
  have := f_call hl hc hf s ⟨.refl _, ho⟩
  revert this
  generalize call c w s = o
  intro this
  cases o <;> exact this

/-- `Full`, with the steps in `leaks` and `crashes` spared, and events in the batch. -/
theorem C79_full_partial (w : World) (c : Call) (s : St) (hf : Fit c s.held) (ho : Orderly s.acts)
    (hc : c ≠ .write 0) (hl : Spared leaks w) (hx : Spared crashes w) :
    match call c w s with
    | .ok _ s' => s'.held.Perm s.held ∧ Orderly s'.acts
    | .spin => True
    | _ => False := by
  have := C79_given_back_partial w c s hf ho hc hl
  revert this
  generalize call c w s = o
  intro this
  cases o with
  | ok a s' => exact this
  | throw s' => exact this
  | ub s' => exact this hx
  | stuck l s' => exact this
  | spin => trivial

theorem session (w : World) (hl : Spared leaks w) : ∀ (cs : List Call), (∀ c ∈ cs, c ≠ .write 0) →
    Tri w (F []) (calls cs) (fun _ => F []) (fun _ => False)
  | [], _ => tri_pure fun _ p => p
  | c :: cs, h0 => tri_bind _ (f_call hl (h0 c (List.mem_cons_self ..)) ⟨nofun, fun _ => rfl⟩) fun _ =>
      tri_bind _ (session w hl cs fun c hc => h0 c (List.mem_cons_of_mem _ hc)) fun _ => tri_pure fun _ p => p

/-- Any number of calls, one after the other, some of them failing: none of them waits
for a lock that an earlier one kept, and at the end nothing is held. -/
theorem C79_session_partial (w : World) (cs : List Call) (hc : ∀ c ∈ cs, c ≠ .write 0) (hl : Spared leaks w)
    (hx : Spared crashes w) :
    match calls cs w start with
    | .ok _ s => s.held = [] ∧ Orderly s.acts
    | .spin => True
    | _ => False := by
  have := session w hl cs hc start ⟨.refl _, nofun⟩
  revert this
  generalize calls cs w start = o
  intro this
  cases o with
  | ok a s' => exact ⟨List.perm_nil.1 this.1, this.2⟩
  | throw s' => exact this
  | ub s' => exact this hx
  | stuck l s' => exact this
  | spin => trivial

/-! ### Non-vacuity -/

/-- Steps of one kind fail, every time; every question is answered by 1, but those of
the numbers in `zeros`, which are answered by 0. -/
def world (x : Site) (zeros : List Nat) : World := ⟨fun y _ => y == x, fun n => if zeros.contains n then 0 else 1⟩

theorem world_spared {x zeros} {sites : List Site} (h : sites.contains x = false) : Spared sites (world x zeros) := by
  intro y hy n
  change (y == x) = false
  cases e : y == x
  · rfl
  · rw [eq_of_beq e] at hy
    exact absurd (List.elem_eq_true_of_mem hy) (by rw [show List.elem x sites = false from h]; decide)

/-- Whether calls end with these replies and these locks. -/
def ends (cs : List Call) (w : World) (rs : List Bool) (held : List Lock) : Bool :=
  match calls cs w start with
  | .ok r s => r == rs && s.held == held
  | _ => false

/-- Whether a call waits for itself, for this lock, with these held. -/
def hangs (cs : List Call) (w : World) (l : Lock) (held : List Lock) : Bool :=
  match calls cs w start with
  | .stuck m s => m == l && s.held == held
  | _ => false

/-- The second of three events has too long a key: the batch fails, the locks of the
first event are given back, and a SET goes through. -/
example : Spared leaks (world .record []) ∧ Spared crashes (world .record []) ∧
    ends [.write 3, .execute .set] (world .record []) [false, true] [] = true :=
  ⟨world_spared (by decide), world_spared (by decide), by decide +kernel⟩

/-- Everything else fails: the log cannot be written, nothing can be refreshed. -/
example : Spared leaks (world .other [4]) ∧ Spared crashes (world .other [4]) ∧
    ends [.write 2, .execute .checkpoint, .execute (.partitionRefresh true), .execute .debugWalCreate]
      (world .other [4]) [false, false, false, false] [] = true :=
  ⟨world_spared (by decide), world_spared (by decide), by decide +kernel⟩

/-- A writer that has a cursor open on the same partition. -/
example : Fit (.write 2) [.access 1, .shared] ∧ Orderly [] ∧
    (match call (.write 2) (world .record []) ⟨0, [.access 1, .shared], [], [], false⟩ with
      | .ok r s => r == false && s.held == [.access 1, .shared]
      | _ => false) = true := by
  refine ⟨⟨fun l hl => ?_, fun h => absurd h (by decide)⟩, nofun, by decide +kernel⟩
  simp only [List.mem_cons, List.not_mem_nil, or_false] at hl
  rcases hl with rfl | rfl
  · exact .inr ⟨1, rfl⟩
  · exact .inl rfl

/-! ### What is missing -/

/-- wal_rotate adds the new file to the list of files while it has the lock of the log,
without a guard (wal.c:86): if the list cannot grow, the lock is kept, and the next
write hangs with its partition locked. -/
theorem C79_rotate_false :
    ends [.execute .debugWalCreate] (world .rotateId []) [false] [.wal] = true ∧
    hangs [.execute .debugWalCreate, .write 1] (world .rotateId []) .wal [.access 1, .shared, .wal] = true :=
  ⟨by decide +kernel, by decide +kernel⟩

/-- engine_rebalance_tier copies the name of a storage while the mutex of the engine is
held, without a guard (op.c:540, 556-572). -/
theorem C79_rebalance_false :
    ends [.execute .rebalance] (world .tierName [2, 5]) [false] [.mutex] = true ∧
    hangs [.execute .rebalance, .write 1] (world .tierName [2, 5]) .mutex [.shared, .mutex] = true :=
  ⟨by decide +kernel, by decide +kernel⟩

/-- engine_commit asks for a refresh, outside of the block whose errors are caught
(write.c:61, 136): if the request cannot be allocated, the locks of the event and of
those after it are kept; the batch is in the log, and the caller is told that it
failed. -/
theorem C79_commit_false :
    ends [.write 2] (world .commitRequest []) [false] [.access 1, .shared, .access 1, .shared] = true ∧
    hangs [.write 2, .execute .set] (world .commitRequest []) .exclusive [.access 1, .shared, .access 1, .shared] =
      true :=
  ⟨by decide +kernel, by decide +kernel⟩

/-- A batch without events, and a log that cannot be written: engine_rollback reads a
record in front of NULL. -/
theorem C79_empty_false : Spared leaks (world .other []) ∧ Spared crashes (world .other []) ∧
    (match call (.write 0) (world .other []) start with
      | .ub _ => true
      | _ => false) = true :=
  ⟨world_spared (by decide), world_spared (by decide), by decide +kernel⟩

theorem C79_false : ¬ Full := by
  intro h
  have := h (world .rotateId []) (.execute .debugWalCreate) start ⟨nofun, fun _ => rfl⟩ nofun
  have e : (match call (.execute .debugWalCreate) (world .rotateId []) start with
    | .ok _ s => s.held == [.wal]
    | _ => false) = true := by decide +kernel
  revert this e
  generalize call (.execute .debugWalCreate) (world .rotateId []) start = o
  intro this e
  cases o with
  | ok a s =>
    have p : s.held.Perm start.held := this.1
    rw [eq_of_beq (show (s.held == [.wal]) = true from e)] at p
    exact absurd p.length_eq (by decide)
  | throw s => exact this
  | ub s => exact this
  | stuck l s => exact this
  | spin => exact absurd e (by decide)

end Verif.C79
