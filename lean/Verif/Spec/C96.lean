import Verif.Model.Mock

/-! C96: the test cloud gives back what was uploaded. -/
namespace Verif.C96
open Mock

/-- After any history, a partition that is uploaded, dropped locally and downloaded has
the file it had. -/
def Full : Prop :=
  ∀ (h : List Mock.Step) (b : Bytes), (run {} h).file = some b → (run {} h).cloud = false →
    (run {} (h ++ [.upload none, .dropLocal, .download])).file = some b

/-- No upload stopped after it had written something, and no removal was cut short. -/
def Undisturbed (h : List Mock.Step) : Prop :=
  ∀ x ∈ h, match x with
    | .upload (some .before) => True
    | .upload (some _) => False
    | .dropCloud ends => ends = false
    | _ => True

/-- The file never gets shorter from one refresh to the next: `n` is the number of bytes
of the last one. -/
def Grows (n : Nat) : List Mock.Step → Prop
  | [] => True
  | .refresh b :: h => n ≤ b.length ∧ Grows b.length h
  | _ :: h => Grows n h

end Verif.C96
