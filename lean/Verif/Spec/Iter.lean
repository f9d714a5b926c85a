import Verif.Model.Event

/-! What running an iterator to its end returns. -/
namespace Verif

/-- `Yields at_ next s l`: from state `s`, reading the current event and moving
on until there is no current event succeeds and reads exactly `l`. -/
inductive Yields {σ : Type} (at_ : σ → Option Event) (next : σ → Res σ) : σ → List Event → Prop
  | done {s} : at_ s = none → Yields at_ next s []
  | more {s s' e l} : at_ s = some e → next s = .ok s' → Yields at_ next s' l → Yields at_ next s (e :: l)

/-- The result is unique. -/
theorem Yields.unique {σ : Type} {at_ : σ → Option Event} {next : σ → Res σ} {s : σ} {l l' : List Event}
    (h : Yields at_ next s l) (h' : Yields at_ next s l') : l = l' := by
  induction h generalizing l' with
  | done h => cases h' with
    | done => rfl
    | more h2 => rw [h] at h2; cases h2
  | more h1 h2 _ ih => cases h' with
    | done h => rw [h] at h1; cases h1
    | more g1 g2 g3 =>
      rw [h1] at g1; cases g1
      rw [h2] at g2; cases g2
      rw [ih g3]

end Verif
