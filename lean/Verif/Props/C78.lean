import Verif.Proofs.C78End

/-!
C78. A cursor that fails gives everything back once, and goes on where it was.
The first half holds for every failure; the second only until a call has failed.
-/
namespace Verif.C78
open Verif.Scan

theorem evs_size (ps : List Part) : (evs ps).length = size ps := by
  unfold evs size
  rw [List.length_flatMap]
  congr 1
  apply List.map_congr_left
  intro p _
  simp only [List.length_append]

theorem session_using {ps fuel key xs f rs s} (h : session ps fuel key xs f start = .ok (some rs) s) :
    ∃ s', using_ ps fuel key xs f start = .ok (some rs) s' := by
  change M.bind (using_ ps fuel key xs) _ f start = _ at h
  unfold M.bind at h
  cases hu : using_ ps fuel key xs f start with
  | spin => rw [hu] at h; cases h
  | throw s' => rw [hu] at h; cases h
  | ok r s' =>
    rw [hu] at h
    cases r with
    | none => injection h with h; cases h
    | some rs' =>
      refine ⟨s', ?_⟩
      change M.bind monotone_free _ f s' = _ at h
      unfold M.bind at h
      cases hm : monotone_free f s' with
      | spin => rw [hm] at h; cases h
      | throw s2 => rw [hm] at h; cases h
      | ok u s2 =>
        rw [hm] at h
        have h : Out.ok (some rs') s2 = .ok (some rs) s := h
        injection h with h
        rw [h]

/-- A session comes to its end, whatever fails in it: no loop of the cursor needs
more turns than there are events and partitions. -/
theorem C78_ends (f : Nat → Bool) (ps : List Part) (key : Option Nat) (fuel : Nat) (xs : List Call) (hp : Proper ps)
    (hf : size ps + ps.length + 2 ≤ fuel) : ∃ r s, session ps fuel key xs f start = .ok r s :=
  session_ends hp (by unfold enough; rw [evs_size]; exact hf) f

/-- Locks, contexts, the place in the list of readers and memory: what was taken is
given back once and in order, whatever fails, whichever calls are made. -/
theorem C78_given_back (f : Nat → Bool) (ps : List Part) (key : Option Nat) (fuel : Nat) (xs : List Call)
    (r : Option (List Reply)) (s : St) (h : session ps fuel key xs f start = .ok r s) : Orderly s.tr ∧ AllBack s.tr := by
  have := t_session (ps := ps) (fuel := fuel) (key := key) (xs := xs) f start rfl
  rw [h] at this
  exact ⟨this.1, fun t => by rw [this.2 t]; rfl⟩

/-- A cursor that could not be opened holds nothing. -/
theorem C78_nothing (f : Nat → Bool) (ps : List Part) (key : Option Nat) (fuel : Nat) (s : St)
    (h : monotone_cursor ps fuel key f start = .ok false s) : Orderly s.tr ∧ AllBack s.tr := by
  have := t_cursor (ps := ps) (fuel := fuel) (key := key) f start rfl
  rw [h] at this
  have : Freed [] s := by simpa using this
  exact ⟨this.1, fun t => by rw [this.2 t]; rfl⟩

/-- At its end a cursor that is still open holds only memory. -/
theorem C78_end (f : Nat → Bool) (ps : List Part) (key : Option Nat) (fuel : Nat) (xs : List Call)
    (rs : List Reply) (s : St) (h : using_ ps fuel key xs f start = .ok (some rs) s)
    (hl : rs.getLast? = some (.next .zero)) : Orderly s.tr ∧ OnlyMemory s.tr := by
  have := t_using (ps := ps) (fuel := fuel) (key := key) (xs := xs) f start rfl
  rw [h] at this
  obtain ⟨⟨⟨h1, h2⟩, h3⟩, h4⟩ := this
  have hr := h4 hl
  have hc := h3 hr
  refine ⟨h1, fun t ht => ?_⟩
  rw [h2 t] at ht
  cases t with
  | mem m => exact ⟨m, rfl⟩
  | control => simp [own, hr] at ht
  | mutex => simp [own] at ht
  | access i => simp [own, hr] at ht
  | table i => simp [own, hc.1] at ht
  | compression k => simp [own, hc.2.1] at ht
  | encryption k => simp [own, hc.2.2] at ht

/-- Whatever fails: the events read after a call that succeeded are live and come
in order, each once.  Missing for the whole: a read that follows a failed call, and
the events that a failed call has lost. -/
theorem C78_order_partial (f : Nat → Bool) (ps : List Part) (key : Option Nat) (fuel : Nat) (xs : List Call)
    (rs : List Reply) (s : St) (hp : Proper ps) (h : session ps fuel key xs f start = .ok (some rs) s) :
    (∀ e ∈ given true rs, Live ps key e) ∧ Ascending (given true rs) := by
  obtain ⟨s', h'⟩ := session_using h
  have := r_using (ps := ps) (fuel := fuel) (key := key) (xs := xs) hp f start trivial
  rw [h'] at this
  exact this rs rfl

/-- When no call fails, the application that reads on comes to the end, and has got
exactly the live events.  Missing for the whole: a call that fails and is
repeated. -/
theorem C78_all_partial (f : Nat → Bool) (ps : List Part) (key : Option Nat) (fuel n : Nat)
    (rs : List Reply) (s : St) (hp : Proper ps) (hn : size ps < n)
    (h : session ps fuel key (.read :: thorough n) f start = .ok (some rs) s) (hf : .next .failed ∉ rs) :
    .next .zero ∈ rs ∧ ∀ e, Live ps key e ↔ e ∈ given true rs := by
  obtain ⟨s', h'⟩ := session_using h
  have h1 := r_using_end (ps := ps) (fuel := fuel) (key := key) (n := n) hp (by rw [evs_size]; exact hn) f start trivial
  rw [h'] at h1
  have hz := h1 rs rfl hf
  have h2 := r_using_all (ps := ps) (fuel := fuel) (key := key) (n := n) hp f start trivial
  rw [h'] at h2
  exact ⟨hz, fun e => ⟨h2 rs rfl hf hz e, fun he => (C78_order_partial f ps key fuel _ rs s hp h).1 e he⟩⟩

/-! ### What a failed call loses -/

def ev (i : Nat) : Ev := ⟨i, false, i⟩

/-- Two partitions with events in memory, in the second table and in files. -/
def two : List Part :=
  [⟨0, 99, [ev 1, ev 10], [], some ⟨2, 1, [[ev 1], [ev 5], [ev 7]]⟩⟩,
   ⟨100, 199, [ev 101], [ev 102], some ⟨0, 0, [[ev 103], [ev 150]]⟩⟩]

instance (l : List Ev) : Decidable (Ascending l) := inferInstanceAs (Decidable (l.Pairwise fun x y => x.id < y.id))

theorem two_proper : Proper two := by
  refine ⟨by decide, ?_⟩
  intro p hp
  simp only [two, List.mem_cons, List.not_mem_nil, or_false] at hp
  rcases hp with e | e <;> subst e
  · refine ⟨by decide, by decide, by decide, by decide, by decide, by decide, ?_⟩
    intro f hf; injection hf with hf; subst hf; decide
  · refine ⟨by decide, by decide, by decide, by decide, by decide, by decide, ?_⟩
    intro f hf; injection hf with hf; subst hf; decide

/-- The replies of a session. -/
def replies {α : Type} : Out (Option α) → Option α
  | .ok r _ => r
  | .throw _ => none
  | .spin => none

theorem of_replies {α : Type} {x : Out (Option α)} {a : α} (h : replies x = some a) : ∃ s, x = .ok (some a) s := by
  cases x with
  | ok r s => exact ⟨s, by rw [← show r = some a from h]⟩
  | throw s => cases h
  | spin => cases h

/-- A session with replies and a final state that pass a test. -/
def passes {α : Type} (t : α → St → Bool) : Out α → Bool
  | .ok a s => t a s
  | .throw _ => false
  | .spin => false

theorem of_passes {α : Type} {x : Out α} {t : α → St → Bool} (h : passes t x = true) : ∃ a s, x = .ok a s ∧ t a s = true := by
  cases x with
  | ok a s => exact ⟨a, s, rfl, h⟩
  | throw s => cases h
  | spin => cases h

/-- The whole reading fails nowhere: everything is got. -/
theorem two_quiet : replies (session two 14 none (.read :: thorough 11) (fun _ => false) start) =
    some (.read (some (ev 1)) :: ([5, 7, 10, 101, 102, 103, 150].flatMap fun i => [.next .one, .read (some (ev i))]) ++
      [.next .zero, .read none, .next .zero, .read none, .next .zero, .read none, .next .zero, .read none]) := by
  decide +kernel

/-- A region cannot be read; the call is repeated and succeeds, and the region with
event 5 is passed over in silence.  The read after the failed call has given event
10, before event 7. -/
theorem C78_skip_false :
    replies (session two 30 none (.read :: thorough 9) (· == 12) start) =
      some ([.read (some (ev 1)), .next .failed, .read (some (ev 10)), .next .one, .read (some (ev 7)), .next .one,
        .read (some (ev 10))] ++ ([101, 102, 103, 150].flatMap fun i => [.next .one, .read (some (ev i))]) ++
        [.next .zero, .read none, .next .zero, .read none]) ∧
    Live two none (ev 5) := by
  refine ⟨by decide +kernel, ⟨two.head (by decide), by decide, ?_⟩, rfl, nofun⟩
  exact .inr (.inr ⟨by decide, by decide⟩)

/-- The next partition cannot be opened in full; the call is repeated and succeeds,
and of that partition only the events in memory are read. -/
theorem C78_partition_false :
    replies (session two 30 none (.read :: thorough 9) (· == 27) start) =
      some ([.read (some (ev 1))] ++ ([5, 7, 10].flatMap fun i => [.next .one, .read (some (ev i))]) ++
        [.next .failed, .read none] ++ ([101, 102].flatMap fun i => [.next .one, .read (some (ev i))]) ++
        [.next .zero, .read none, .next .zero, .read none, .next .zero, .read none]) ∧
    Live two none (ev 103) ∧ Live two none (ev 150) := by
  refine ⟨by decide +kernel, ⟨⟨two[1], by decide, ?_⟩, rfl, nofun⟩, ⟨⟨two[1], by decide, ?_⟩, rfl, nofun⟩⟩
  · exact .inr (.inr ⟨by decide, by decide⟩)
  · exact .inr (.inr ⟨by decide, by decide⟩)

/-- One partition whose second table has an older version of event 5. -/
def versions : List Part := [⟨0, 99, [⟨5, false, 50⟩], [ev 1, ev 5], some ⟨0, 0, [[ev 1], [ev 7]]⟩⟩]

/-- The read after a failed call gives a version that was replaced. -/
theorem C78_old_false :
    replies (session versions 30 none [.read, .next, .read] (· == 9) start) =
      some [.read (some (ev 1)), .next .failed, .read (some (ev 5))] ∧
    ¬ Live versions none (ev 5) := by
  refine ⟨by decide +kernel, ?_⟩
  rintro ⟨⟨p, hp, hn⟩, -⟩
  simp only [versions, List.mem_singleton] at hp
  subst hp
  rcases hn with h | h | h
  · revert h; decide
  · revert h; decide
  · revert h; decide

/-- C78 does not hold in full. -/
theorem C78_false : ¬ Full := by
  intro h
  obtain ⟨s, hs⟩ := of_replies C78_skip_false.1
  have := (h _ _ _ _ _ _ _ two_proper hs).2.2.2 (by decide) (ev 5) C78_skip_false.2
  revert this
  decide

/-! ### The hypotheses are met -/

/-- Sessions on these partitions end. -/
example (f : Nat → Bool) (xs : List Call) : ∃ r s, session two 14 (some 5) xs f start = .ok r s :=
  C78_ends f two (some 5) 14 xs two_proper (by decide)

/-- Everything is given back after a session with a failure, in which much was
taken. -/
example : ∃ rs s, session two 30 none (.read :: thorough 9) (· == 12) start = .ok rs s ∧
    decide (20 < s.tr.length) = true :=
  of_passes (t := fun _ s => decide (20 < s.tr.length)) (by decide +kernel)

/-- A cursor that cannot be opened because the first region cannot be read. -/
example : ∃ r s, monotone_cursor two 30 (some 1) (· == 7) start = .ok r s ∧ (!r && decide (10 < s.tr.length)) = true :=
  of_passes (t := fun r s => !r && decide (10 < s.tr.length)) (by decide +kernel)

/-- A cursor at its end. -/
example : ∃ rs s, using_ two 30 (some 100) [.next, .next, .next, .next] (fun _ => false) start = .ok rs s ∧
    decide (rs.bind (fun l => l.getLast?) = some (.next .zero)) = true :=
  of_passes (t := fun (rs : Option (List Reply)) _ => decide (rs.bind (fun l => l.getLast?) = some (.next .zero))) (by decide +kernel)

/-- A reading with a failure, in order all the same. -/
example : ∃ rs s, session two 30 none (.read :: thorough 9) (· == 12) start = .ok rs s ∧
    decide (rs.map (given true) = some ([1, 7, 10, 101, 102, 103, 150].map ev)) = true :=
  of_passes (t := fun (rs : Option (List Reply)) _ => decide (rs.map (given true) = some ([1, 7, 10, 101, 102, 103, 150].map ev))) (by decide +kernel)

/-- A reading in which no call fails. -/
example : ∃ rs s, session two 14 none (.read :: thorough 11) (fun _ => false) start = .ok (some rs) s ∧ size two < 11 ∧
    .next .failed ∉ rs ∧ given true rs = [1, 5, 7, 10, 101, 102, 103, 150].map ev := by
  obtain ⟨s, h⟩ := of_replies two_quiet
  exact ⟨_, s, h, by decide, by decide, by decide⟩

end Verif.C78
