import Verif.Proofs.C29c

/-! C29: serial ids are unique and increasing. -/
namespace Verif.C29
open Dur Serial

/-- As long as the process runs, the ids given increase, whatever else happens. -/
theorem C29_running_partial (iv : Nat) (ops : List Serial.Op) (h : All iv Running Serial.init ops) {s : State} {ids : List Nat}
    (hr : Serial.run iv Serial.init [] ops = .ok (s, ids)) (args : List Arg) (hroom : Room s args) :
    (ids ++ given s.ssn args).Pairwise (· < ·) := by
  obtain ⟨h1, h2⟩ := running_run ops (fun i hi => (by cases hi)) .nil h hr
  obtain ⟨h3, h4, _⟩ := given_bounds args s.ssn hroom
  rw [List.pairwise_append]
  refine ⟨h2, h4, ?_⟩
  intro a ha b hb
  have := h1 a ha
  have := (h3 b hb).1
  omega

/-- Explicit ids are below the serial number, and after every restart the last
partition holds an event: then no event that can be read, and no event of any
table or file, is overwritten.  Deletes, drops, refused batches and failing
refreshes are included. -/
theorem C29_fresh_partial (iv : Nat) (ops : List Serial.Op) (h : All iv (Tame iv) Serial.init ops) {s : State} {ids : List Nat}
    (hr : Serial.run iv Serial.init [] ops = .ok (s, ids)) (args : List Arg) (hroom : Room s args) :
    (∀ i ∈ given s.ssn args, ∀ k, (view iv s.db k).isSome → k.1 < i) ∧ (given s.ssn args).Pairwise (· < ·) := by
  have hf := fresh_run ops (fresh_init iv) h hr
  obtain ⟨h3, h4, _⟩ := given_bounds args s.ssn hroom
  refine ⟨?_, h4⟩
  intro i hi k hk
  obtain ⟨p, e, he, h1⟩ := view_has hk
  have := hf.below p e he
  have := (h3 i hi).1
  omega

/-- The full property for histories in which nothing is deleted, dropped or
refused, no refresh fails, the log is not collected in the windows of C25, and
explicit ids are below the serial number.  Missing: deletes, drops, refused
batches, failures and larger explicit ids, with which it is false (below). -/
theorem C29_partial (iv : Nat) (ops : List Serial.Op) (h : All iv Plain Serial.init ops) {s : State} {ids : List Nat}
    (hr : Serial.run iv Serial.init [] ops = .ok (s, ids)) (args : List Arg) (hroom : Room s args) : Next iv s ids args := by
  have hk := known_run ops (known_init iv) h hr
  obtain ⟨h3, h4, _⟩ := given_bounds args s.ssn hroom
  refine ⟨?_, h4⟩
  intro i hi
  have hi' := (h3 i hi).1
  refine ⟨?_, ?_⟩
  · intro j hj
    have := hk.next j hj
    omega
  · intro k hk2
    obtain ⟨p, e, he, h1⟩ := view_has hk2
    have := hk.fresh.below p e he
    omega

/-! Examples. -/

/-- An event without id. -/
def auto (v : UInt8) : Arg := { serial := true, event := { id := 0, flags := 0, key := [], value := [v] } }

/-- An event with an id. -/
def own (id : Nat) (flags : Nat) (v : UInt8) : Arg := { serial := false, event := { id := id, flags := flags, key := [], value := [v] } }

def refreshOps (p : Nat) : List Serial.Op := [.other (.begin_ p), .other (.merge p), .other (.apply_ p), .other (.complete p), .other (.delete p), .other (.finish p)]

/-- Batches across partitions, an older id overwritten, a refresh, restarts. -/
def ordinary : List Serial.Op :=
  [.write [auto 1, auto 2], .other .commit, .write [auto 3, own 1 0 9], .other .commit] ++ refreshOps 0 ++
  [.other .crash, .write [auto 4, auto 5], .other .commit, .other .crash]

example : All 2 Plain Serial.init ordinary ∧ ∃ s, Serial.run 2 Serial.init [] ordinary = .ok (s, [0, 1, 2, 3, 4]) ∧ given s.ssn [auto 6] = [5] := by
  refine ⟨plain_all _ (known_init 2) (by decide +kernel), ?_⟩
  have h : (match Serial.run 2 Serial.init [] ordinary with
    | .ok (s, ids) => some (ids, given s.ssn [auto 6])
    | _ => none) = some ([0, 1, 2, 3, 4], [5]) := by decide +kernel
  cases hr : Serial.run 2 Serial.init [] ordinary with
  | ok r =>
    obtain ⟨s, ids⟩ := r
    rw [hr] at h
    simp only [Option.some.injEq, Prod.mk.injEq] at h
    exact ⟨s, by rw [h.1], h.2⟩
  | err _ => rw [hr] at h; cases h
  | abort _ => rw [hr] at h; cases h
  | ub _ => rw [hr] at h; cases h

/-- With a delete, a refused batch, a failed refresh and a drop. -/
def mixed : List Serial.Op :=
  [.write [auto 1, auto 2, auto 3], .other .commit, .write [own 1 1 0], .other .commit, .refused [auto 7, auto 8], .other (.begin_ 0), .other (.fail 0),
    .other .crash, .write [auto 4], .other .commit, .other (.dropFile 0), .other (.dropRef 0), .other .crash]

example : All 2 (Tame 2) Serial.init mixed := tame_all _ (fresh_init 2) (by decide +kernel)

example : All 2 Running Serial.init [.write [auto 1, auto 2], .other .commit, .write [own 90 0 1, auto 3], .other (.dropRef 0)] := by
  refine ⟨(by unfold Running Room; decide), ?_⟩
  intro s1 i1 h1
  cases h1
  refine ⟨(by intro h; cases h), ?_⟩
  intro s2 i2 h2
  cases h2
  refine ⟨(by unfold Running Room; decide), ?_⟩
  intro s3 i3 h3
  cases h3
  exact ⟨(by intro h; cases h), fun _ _ _ => trivial⟩

/-! Counterexamples. -/

/-- The ids given and, for one pair, what is read before and after one more
batch. -/
def outcome (iv : Nat) (ops : List Serial.Op) (args : List Arg) (k : Nat × List UInt8) : Option (List Nat × List Nat × Option Event × Option Event) :=
  match Serial.run iv Serial.init [] ops with
  | .ok (s, ids) =>
    match Serial.step iv s (.write args) with
    | .ok (s', given) => some (ids, given, view iv s.db k, view iv s'.db k)
    | _ => none
  | _ => none

theorem not_full {iv : Nat} {ops : List Serial.Op} {s : State} {ids : List Nat} {args : List Arg} (hr : Serial.run iv Serial.init [] ops = .ok (s, ids))
    (hroom : Room s args) (hn : ¬ Next iv s ids args) : ¬ Full iv := fun hf => hn (hf ops s ids hr args hroom)

/-- An explicit id above the serial number does not raise it: the event is
overwritten by one without id. -/
theorem C29_false_explicit :
    outcome 10 [.write [own 1 0 7, auto 1], .other .commit] [auto 2] (1, []) =
      some ([0], [1], some { id := 1, flags := 0, key := [], value := [7] }, some { id := 1, flags := 0, key := [], value := [2] }) := by decide +kernel

/-- All events of the last partition are deleted and the partition is refreshed:
its file is empty, and the serial number starts at 0 after a restart.  Event 0 is
overwritten. -/
def emptied : List Serial.Op :=
  [.write [auto 1, auto 2, auto 3], .other .commit, .write [own 2 1 0], .other .commit] ++ refreshOps 2 ++ [.other .crash]

theorem C29_false_empty :
    outcome 2 emptied [auto 9] (0, []) =
      some ([0, 1, 2], [0], some { id := 0, flags := 0, key := [], value := [1] }, some { id := 0, flags := 0, key := [], value := [9] }) := by decide +kernel

/-- The same with a partition created for a batch that was refused. -/
def refusedThen : List Serial.Op :=
  [.write [auto 1, auto 2], .other .commit, .refused [auto 3]] ++ refreshOps 2 ++ [.other .crash]

theorem C29_false_refused :
    outcome 2 refusedThen [auto 9] (0, []) =
      some ([0, 1], [0], some { id := 0, flags := 0, key := [], value := [1] }, some { id := 0, flags := 0, key := [], value := [9] }) := by decide +kernel

/-- The newest event is dropped with its partition: after a restart its id is
given again. -/
theorem C29_false_reuse :
    outcome 2 [.write [auto 1, auto 2, auto 3], .other .commit, .other (.dropFile 2), .other (.dropRef 2), .other .crash] [auto 9] (2, []) =
      some ([0, 1, 2], [2], none, some { id := 2, flags := 0, key := [], value := [9] }) := by decide +kernel

theorem C29_false : ¬ Full 2 := by
  cases hr : Serial.run 2 Serial.init [] emptied with
  | ok r =>
    obtain ⟨s, ids⟩ := r
    have h : (match Serial.run 2 Serial.init [] emptied with
      | .ok (s, ids) => (given s.ssn [auto 9] == [0]) && (ids == [0, 1, 2]) && roomB s [auto 9]
      | _ => false) = true := by decide +kernel
    rw [hr] at h
    simp only [Bool.and_eq_true, beq_iff_eq] at h
    refine not_full hr (room_of h.2) (not_next (i := 0) (j := 2) ?_ ?_ (by omega))
    · rw [h.1.1]; simp
    · rw [h.1.2]; simp
  | err _ => exact absurd hr (by intro h; have := (by decide +kernel : (match Serial.run 2 Serial.init [] emptied with | .ok _ => true | _ => false) = true); rw [h] at this; cases this)
  | abort _ => exact absurd hr (by intro h; have := (by decide +kernel : (match Serial.run 2 Serial.init [] emptied with | .ok _ => true | _ => false) = true); rw [h] at this; cases this)
  | ub _ => exact absurd hr (by intro h; have := (by decide +kernel : (match Serial.run 2 Serial.init [] emptied with | .ok _ => true | _ => false) = true); rw [h] at this; cases this)

end Verif.C29
