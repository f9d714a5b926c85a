import Verif.Proofs.C30
import Verif.Props.C07

/-! C30: open cursors stay ordered under concurrent writes. -/
namespace Verif.C30
open Spec C07

/-- Partial: the property for a cursor opened at the start of a table filled by
tame writes (see C07), while the same thread goes on with tame writes that are
harmless for the cursor: they do not go directly before it, do not replace an
earlier event of its page, and do not split its page while it is on the part that
stays (except near the start of the page).  Then the cursor stays on its event,
shows its current version, and `next` goes to the event with the next larger key.
Missing: the other writes, for which it fails (see below). -/
theorem C30_cursor_partial (mc : MemCmp) (sp ss base : Nat) (h1 : 0 < ss) (h2 : ss < sp) (h3 : sp < 2 * ss)
    (es : List Event) (ops : List Op) (hw : ∀ x ∈ es ++ writes ops, Within base x)
    (ht : Tame sp ss (es ++ writes ops))
    (hs : AllHarmless sp ss (table es, (table es).head?) ops) :
    ∃ m ps, C07.run mc (Memtable.init sp ss) es = .ok (m, ps) ∧ Follows mc es m ops := by
  obtain ⟨m, ps, m', hr, ho, hsim⟩ := sim_open mc (base := base) h1 h2 h3 (es := es)
    (fun x hx => hw x (List.mem_append_left _ hx))
    (fun pre x post hx => ht pre x (post ++ writes ops) (by rw [hx]; simp))
  exact ⟨m, ps, hr, m', ho, sim_shows mc h1 h2 h3 ops es m' _ hsim hw ht hs⟩

/-- What the reference cursor shows after a `next` is larger than what it showed
before: the property in the words of the statement. -/
theorem C30_next_larger (s : Ref) (k e : Event) (hk : s.2 = some k) (he : (refStep s .next).2 = some e) :
    evCmp k e < 0 ∧ e ∈ s.1 ∧ ∀ a ∈ s.1, Ascending s.1 → evCmp k a < 0 → evCmp e a ≤ 0 := by
  simp only [refStep, hk, Option.bind_some] at he
  refine ⟨by simpa using List.find?_some he, List.mem_of_find?_eq_some he, ?_⟩
  intro a ha hasc hka
  obtain ⟨_, A, B, hAB, hA⟩ := List.find?_eq_some_iff_append.1 he
  rw [hAB] at ha hasc
  rcases List.mem_append.1 ha with ha | ha
  · have := hA a ha
    simp at this
    omega
  · rcases List.mem_cons.1 ha with rfl | ha
    · rw [evCmp_refl]; omega
    · have h2 := (List.pairwise_append.1 hasc).2.1
      have := (List.pairwise_cons.1 h2).1 a ha
      omega

/-- A cursor on 9 of the table 5, 9: the insert of 7 moves it to 7 (back), so
that the next event is 9 again. -/
theorem C30_false_before :
    ∃ m ps m', C07.run memCmpStd (Memtable.init 512 508) [ev 5, ev 9] = .ok (m, ps) ∧
      opened memCmpStd m = .ok m' ∧
      shows memCmpStd m' [.next, .write (ev 7), .next] = .ok [some (ev 9), some (ev 7), some (ev 9)] := by
  refine ⟨{ Memtable.init 512 508 with
    tree := .node .black .nil ⟨0, [ev 5, ev 9]⟩ .nil, countPages := 1, count := 2, nextPid := 1 }, [none, none],
    { Memtable.init 512 508 with
      tree := .node .black .nil ⟨0, [ev 5, ev 9]⟩ .nil, countPages := 1, count := 2, nextPid := 1,
      iters := [⟨some (ev 5), some 0, 0⟩] }, ?_, ?_, ?_⟩ <;> decide +kernel

/-- The table 5, 7, 9. -/
def three : Memtable :=
  { Memtable.init 512 508 with
    tree := .node .black .nil ⟨0, [ev 5, ev 7, ev 9]⟩ .nil, countPages := 1, count := 3, nextPid := 1 }

theorem run_three : C07.run memCmpStd (Memtable.init 512 508) [ev 5, ev 7, ev 9] = .ok (three, [none, none, none]) := by
  decide +kernel

theorem opened_three : opened memCmpStd three = .ok { three with iters := [⟨some (ev 5), some 0, 0⟩] } := by
  decide +kernel

/-- A cursor on 7 of the table 5, 7, 9: overwriting 5 moves it to 9. -/
theorem C30_false_update :
    shows memCmpStd { three with iters := [⟨some (ev 5), some 0, 0⟩] } [.next, .write (ev 5), .next] =
      .ok [some (ev 7), some (ev 9), none] := by
  decide +kernel

/-- A cursor on 9 of the table 5, 7, 9: overwriting 5 moves it behind the last
event of the page, where it reads a slot that was never written. -/
theorem C30_false_update_end :
    ∃ w, shows memCmpStd { three with iters := [⟨some (ev 5), some 0, 0⟩] } [.next, .next, .write (ev 5)] = .ub w := by
  refine ⟨"memtable_iterator_sync: index out of range", ?_⟩
  decide +kernel

/-- A cursor on the eighth of 512 events: appending one event, which splits the
page, moves it from 14 to 16. -/
theorem C30_false_split :
    shows memCmpStd { page1 512 with iters := [⟨some (ev 14), some 0, 7⟩] } [.write (ev 1024)] = .ok [some (ev 16)] := by
  decide +kernel

/-- The property is false of the code. -/
theorem C30_false : ¬ Full 512 508 := by
  intro h
  obtain ⟨m, ps, m', hr, ho, hs⟩ := C30_false_before
  obtain ⟨m2, ho2, hs2⟩ := h memCmpStd 0 [ev 5, ev 9] [.next, .write (ev 7), .next] m ps
    (by intro e he; simp at he; rcases he with rfl | rfl <;> simp [Within, ev])
    (by intro e he; simp at he; subst he; simp [Within, ev]) hr
  rw [ho] at ho2
  have := Res.ok.inj ho2
  subst this
  rw [hs] at hs2
  revert hs2
  decide +kernel

instance (sp ss L k e) : Decidable (Harmless sp ss L k e) := by unfold Harmless; dsimp only; infer_instance

/-- Check of `AllHarmless`. -/
def checkHarmless (sp ss : Nat) : Ref → List Op → Bool
  | _, [] => true
  | s, o :: os =>
    (match o, s.2 with
      | .write e, some k => decide (Harmless sp ss s.1 k e)
      | _, _ => true) && checkHarmless sp ss (refStep s o) os

theorem checkHarmless_sound {sp ss : Nat} : ∀ (ops : List Op) (s : Ref), checkHarmless sp ss s ops = true →
    AllHarmless sp ss s ops := by
  intro ops
  induction ops with
  | nil => intros; trivial
  | cons o os ih =>
    intro s h
    simp only [checkHarmless, Bool.and_eq_true] at h
    refine ⟨?_, ih _ h.2⟩
    intro e k ho hk
    subst ho
    have := h.1
    rw [hk] at this
    simpa using this

/-- The hypotheses are met on pages of 4 events split at 3: a cursor follows
writes before and after it, updates of its event, and a split of its page. -/
example : ∃ m ps, C07.run memCmpStd (Memtable.init 4 3) [ev 6, ev 2, ev 4] = .ok (m, ps) ∧
    Follows memCmpStd [ev 6, ev 2, ev 4] m
      [.next, .write ⟨4, 0, [], [1]⟩, .write (ev 1), .next, .next, .write (ev 9)] := by
  refine C30_cursor_partial memCmpStd 4 3 0 (by omega) (by omega) (by omega) _ _ ?_ ?_ ?_
  · intro x hx
    simp [writes] at hx
    rcases hx with rfl | rfl | rfl | rfl | rfl | rfl <;> simp [Within, ev]
  · intro pre e post h
    have hn : pre.length < 6 := by
      have := congrArg List.length h
      simp [writes] at this
      omega
    have hp : pre = ([ev 6, ev 2, ev 4] ++ writes
      [.next, .write ⟨4, 0, [], [1]⟩, .write (ev 1), .next, .next, .write (ev 9)]).take pre.length := by
      rw [h]; simp
    have he : some e = ([ev 6, ev 2, ev 4] ++ writes
      [.next, .write ⟨4, 0, [], [1]⟩, .write (ev 1), .next, .next, .write (ev 9)])[pre.length]? := by
      rw [h]; simp
    generalize pre.length = n at *
    have : n = 0 ∨ n = 1 ∨ n = 2 ∨ n = 3 ∨ n = 4 ∨ n = 5 := by omega
    rcases this with rfl | rfl | rfl | rfl | rfl | rfl <;> (cases he; rw [hp]; decide)
  · apply checkHarmless_sound
    decide +kernel

end Verif.C30
