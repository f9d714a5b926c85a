import Verif.Proofs.C66

/-! C66: linked lists are sequences. -/
namespace Verif.C66
open Links

/-- C66 in full. -/
theorem C66_full : Full := full

/-- A memory with a list of two, an empty one and a link in none. -/
def exampleMem : Mem
  | 1 => some ⟨2, 3⟩
  | 2 => some ⟨3, 1⟩
  | 3 => some ⟨1, 2⟩
  | 4 => some ⟨4, 4⟩
  | 5 => some ⟨0, 0⟩
  | _ => none

/-- What it has. -/
def exampleWorld : World where
  lists := fun k => if k = 1 then some [2, 3] else if k = 4 then some [] else none
  out := (· = 5)

theorem exampleLists {k : Ptr} {zs : List Ptr} (e : exampleWorld.lists k = some zs) : (k = 1 ∧ zs = [2, 3]) ∨ (k = 4 ∧ zs = []) := by
  simp only [exampleWorld] at e
  split at e
  · simp at e; exact .inl ⟨‹_›, e.symm⟩
  · split at e
    · simp at e; exact .inr ⟨‹_›, e⟩
    · simp at e

theorem exampleHas : Has exampleMem exampleWorld := by
  refine ⟨⟨?_, ?_, ?_, ?_, ?_⟩, ?_, ?_⟩
  · intro k zs e
    rcases exampleLists e with ⟨rfl, rfl⟩ | ⟨rfl, rfl⟩ <;> decide
  · intro k zs k' zs' e e' hne
    rcases exampleLists e with ⟨rfl, rfl⟩ | ⟨rfl, rfl⟩ <;> rcases exampleLists e' with ⟨rfl, rfl⟩ | ⟨rfl, rfl⟩ <;>
      first | exact absurd rfl hne | decide
  · intro k zs e a ha ho
    simp only [exampleWorld] at ho
    subst ho
    rcases exampleLists e with ⟨rfl, rfl⟩ | ⟨rfl, rfl⟩ <;> revert ha <;> decide
  · intro k zs e
    rcases exampleLists e with ⟨rfl, rfl⟩ | ⟨rfl, rfl⟩ <;> decide
  · intro a ho
    have : a = 5 := ho
    subst this
    decide
  · intro k zs e
    rcases exampleLists e with ⟨rfl, rfl⟩ | ⟨rfl, rfl⟩ <;> simp [Ring, Path, Edge, exampleMem]
  · intro a ho
    simp only [exampleWorld] at ho
    subst ho
    exact ⟨_, rfl⟩

/-- The hypotheses can be met: a link is put into the empty list and another one
taken from the other. -/
example : ∃ w' rs, Run exampleWorld [.append 4 5, .unlink 3, .pop 1] w' rs ∧ rs = [none, none, some 2] :=
  ⟨_, _, .cons _ _ _ _ _ _ _ ⟨rfl, [], rfl⟩ (.append 4 5)
    (.cons _ _ _ _ _ _ _ ⟨1, [2, 3], rfl, by decide⟩ (.unlink 1 3 [2] [] rfl)
      (.cons _ _ _ _ _ _ _ ⟨2, [], rfl⟩ (.pop 1 2 [] rfl) (.nil _))), rfl⟩

example : exampleWorld.lists 1 = some [2, 3] := rfl

/-- From an empty list the head itself is returned: callers have to ask first. -/
theorem C66_pop_empty : ∀ m w h, Has m w → w.lists h = some [] → ∃ m', list_pop m h = .ok (m', h) := by
  intro m w h hh hl
  have he : Edge m h h := (hh.rings _ _ hl).1
  have he' := edge_iff.1 he
  obtain ⟨m1, e1, n1, p1⟩ := setNext_ok (p := h) (v := h) he'.1
  obtain ⟨m2, e2, _, _⟩ := setPrev_ok (m := m1) (p := h) (v := h) (by rw [p1]; exact he'.2)
  refine ⟨m2, ?_⟩
  unfold list_pop list_unlink
  rw [next_ok he'.1, Res.bind_ok, prev_ok he'.2, Res.bind_ok, next_ok he'.1, Res.bind_ok, e1, Res.bind_ok,
    next_ok (show nx m1 h = some h by rw [n1, if_pos rfl]), Res.bind_ok, prev_ok (show pv m1 h = some h by rw [p1, he'.2]), Res.bind_ok,
    e2, Res.bind_ok]

example : exampleWorld.lists 4 = some [] := rfl

/-- The loop that is not the safe one reads the link it is at after the body: it
may not free it. -/
theorem C66_unsafe : ∀ m w h x xs fuel, Has m w → w.lists h = some (x :: xs) →
    ∃ why, list_foreach (fuel + 1) m h (remove fun _ => true) = .ub why := by
  intro m w h x xs fuel hh hl
  have hn := hh.apart.nodup _ _ hl
  have he := edge_iff.1 (ring_first (n := x) (r := xs ++ [h]) (hh.rings _ _ hl) rfl)
  obtain ⟨m1, e1, _⟩ := has_remove (xs := []) hh hl
  refine ⟨"no link there", ?_⟩
  unfold list_foreach foreachFrom remove
  rw [next_ok he.1, Res.bind_ok, if_neg (by rintro rfl; simp at hn)]
  simp only [if_true]
  rw [e1, Res.bind_ok, Res.bind_ok]
  simp only [next, free, if_true]
  rfl

end Verif.C66
