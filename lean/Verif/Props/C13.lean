import Verif.Proofs.C13

/-! C13: merging sources. -/
namespace Verif.C13
open Spec

/-- Partial: any number of sorted sources, for every memcmp and every
implementation of the source interface, when the ids lie in a window of 2^63
(any placement).  Missing: contents whose ids are 2^63 or more apart, where the
comparison wraps (see C13_merge_false). -/
theorem C13_merge_partial (base : Nat) (Ls : List (List Event))
    (h : ∀ L ∈ Ls, Ascending L ∧ ∀ e ∈ L, Window base e) : MergesOK Ls := by
  intro ι mc f its hs
  have hp : Pending f (its.foldl Merge.add Merge.init).list Ls := by
    rw [foldl_add]; simpa [Merge.init] using pending_init hs
  obtain ⟨M, hM, hd⟩ := drain_spec mc f _ _ Ls (Nat.le_refl _) hp h
  exact ⟨M, hM, hd⟩

/-- Ascending lists with the same events are the same. -/
theorem ascending_unique : ∀ {M N : List Event}, Ascending M → Ascending N → (∀ x, x ∈ M ↔ x ∈ N) → M = N := by
  intro M
  induction M with
  | nil =>
    intro N _ _ h
    cases N with
    | nil => rfl
    | cons b N => exact absurd ((h b).2 (by simp)) (by simp)
  | cons a M ih =>
    intro N hM hN h
    cases N with
    | nil => exact absurd ((h a).1 (by simp)) (by simp)
    | cons b N =>
      have hM' := List.pairwise_cons.1 hM
      have hN' := List.pairwise_cons.1 hN
      have hab : a = b := by
        rcases List.mem_cons.1 ((h a).1 (by simp)) with e | ha
        · exact e
        · rcases List.mem_cons.1 ((h b).2 (by simp)) with e | hb
          · exact e.symm
          · have h1 := hM'.1 b hb
            have h2 := hN'.1 a ha
            have := evCmp_swap a b
            omega
      subst hab
      rw [ih hM'.2 hN'.2 fun x => ?_]
      have hne : ∀ {L : List Event}, (∀ y ∈ L, evCmp a y < 0) → x ∈ L → x ≠ a := by
        rintro L hL hx rfl
        have := hL x hx
        rw [evCmp_refl] at this; omega
      constructor
      · intro hx
        rcases List.mem_cons.1 ((h x).1 (by simp [hx])) with e | hb
        · exact absurd e (hne hM'.1 hx)
        · exact hb
      · intro hx
        rcases List.mem_cons.1 ((h x).2 (by simp [hx])) with e | hb
        · exact absurd e (hne hN'.1 hx)
        · exact hb

/-- The result is determined by the sources. -/
theorem C13_merge_unique (Ls : List (List Event)) (M N : List Event) (h1 : Merged Ls M)
    (h2 : Merged Ls N) : M = N := by
  exact ascending_unique h1.1 h2.1 fun x => (h1.2 x).trans (h2.2 x).symm

/-- Sources that are plain lists, used in witnesses and examples. -/
def listIter : IterFns (List Event) := ⟨List.head?, fun L => .ok L.tail⟩

theorem yields_list : ∀ L : List Event, Yields listIter L L
  | [] => rfl
  | _ :: L => ⟨rfl, L, rfl, yields_list L⟩

theorem sources_list : ∀ Ls : List (List Event), Sources listIter Ls Ls
  | [] => trivial
  | L :: Ls => ⟨yields_list L, sources_list Ls⟩

/-- False of the code: two sources holding the ids 0 and 2^63 + 1.  The comparison
wraps, so 2^63 + 1 is returned before 0. -/
theorem C13_merge_false : ¬ Full := by
  intro h
  obtain ⟨M, hM, hd⟩ := h [[⟨0, 0, [], []⟩], [⟨9223372036854775809, 0, [], []⟩]] (by
    simp [Ascending]) (List Event) memCmpStd listIter _ (sources_list _)
  have h1 := hd 2 (by decide)
  have h2 : mergeAll memCmpStd listIter 2 [[⟨0, 0, [], []⟩], [⟨9223372036854775809, 0, [], []⟩]] =
      .ok [⟨9223372036854775809, 0, [], []⟩, ⟨0, 0, [], []⟩] := by decide +kernel
  rw [h2] at h1
  have h3 := Res.ok.inj h1
  rw [← h3] at hM
  have := hM.1
  simp only [Ascending, List.pairwise_cons, List.mem_singleton, forall_eq] at this
  revert this
  decide +kernel

/-- Three sources with common keys: the earliest wins (a memory table over a
rotated one over a file). -/
example : mergeAll memCmpStd listIter 6
    [[⟨3, 1, [], []⟩], [⟨1, 0, [7], [2]⟩, ⟨3, 0, [], [3]⟩], [⟨1, 0, [], [4]⟩, ⟨1, 0, [7], [5]⟩, ⟨5, 0, [], [6]⟩]]
    = .ok [⟨1, 0, [], [4]⟩, ⟨1, 0, [7], [2]⟩, ⟨3, 1, [], []⟩, ⟨5, 0, [], [6]⟩] := by decide +kernel

/-- The hypotheses are met by these sources, with ids above 2^63 as well. -/
example : MergesOK [[⟨3, 1, [], []⟩], [⟨1, 0, [7], [2]⟩, ⟨3, 0, [], [3]⟩],
    [⟨1, 0, [], [4]⟩, ⟨1, 0, [7], [5]⟩, ⟨5, 0, [], [6]⟩]] :=
  C13_merge_partial 0 _ (by simp [Ascending, Window, evCmp, keyCmp, Event.pair, lexCmp])

end Verif.C13
