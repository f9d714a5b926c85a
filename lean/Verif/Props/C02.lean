import Verif.Proofs.C02

/-! C02: the ordered index keeps exactly its entries, in order, and stays
balanced.  Vocabulary in `Spec/C02.lean`. -/
namespace Verif.C02
open Rb Spec
variable {α : Type}

/-- Any sequence of insertions and removals on an empty index succeeds (no NULL
dereference, no assert) and gives an index of exactly the reference set. -/
theorem C02_index_sorted_and_balanced (cmp : α → α → Int) (hc : LawfulCmp cmp)
    (ops : List (Op α)) :
    ∃ t, run cmp .nil ops = .ok t ∧ IndexOf cmp (refRun cmp (fun _ => False) ops) t := by
  obtain ⟨t, h1, h2⟩ := run_inv hc ops (fun _ => False) .nil
    ⟨⟨0, .nil⟩, by simp, by simp⟩
  exact ⟨t, h1, h2.indexOf hc⟩

/-- The hypotheses are met by the comparison of numbers. -/
theorem lawful_sub : LawfulCmp (fun a b : Int => a - b) :=
  ⟨by intros; constructor <;> intro h <;> omega, by intros; omega, by intros; omega,
   by intros; omega⟩

example : ∃ t, run (fun a b : Int => a - b) .nil
      [.insert 5, .insert 1, .insert 9, .remove 5, .insert 7] = .ok t ∧
    forward 10 t = [1, 7, 9] ∧ backward 10 t = [9, 7, 1] := by
  refine ⟨_, by rfl, by decide, by decide⟩

example : ∃ t, run (fun a b : Int => a - b) .nil [.insert 5, .insert 1, .remove 5] = .ok t ∧
    IndexOf (fun a b : Int => a - b) (refRun (fun a b : Int => a - b) (fun _ => False)
      [.insert 5, .insert 1, .remove 5]) t :=
  C02_index_sorted_and_balanced _ lawful_sub _

end Verif.C02
