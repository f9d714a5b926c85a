import Verif.Model.CmdMem
import Verif.Spec.C53

/-! C76: the memory of a command is given back, once, however the command ends. -/
namespace Verif.C76
open CmdMem

/-- Blocks are distinct, and not from the future. -/
def WellFormed (m : Mem) : Prop := (m.live.map (·.1)).Nodup ∧ ∀ x ∈ m.live, x.1 < m.next

/-- What is live after main_execute is what was live `before`, and the result if
there is one; no block was used or freed that was not live. -/
def Balanced (before : List (Ptr × Block)) : Ended → Prop
  | .done _ none m => m.live.Perm before
  | .done _ (some p) m => ∃ b, m.live.Perm ((p, b) :: before)
  | .refused _ m => m.live.Perm before
  | .abort _ => False
  | .ub _ => False

/-- The full property: every text, whatever the execution does, whichever
allocations fail. -/
def Full : Prop := ∀ (env : Parse.Env) (text : List Nat) (exec : Exec) (want : Bool) (m : Mem),
  (∀ c ∈ text, c < 256) → WellFormed m → Balanced m.live (main_execute env text exec want m)

/-- A text is tidy if every string is closed on its line, and outside strings and
comments there are only printable characters and white space, and no numbers with
a point or an exponent. -/
def tidyFrom : C53.Mode → C53.Prev → List Nat → Bool
  | .string _ _, _, [] => false
  | .comment, _, [] => true
  | .plain, _, [] => true
  | .comment, _, c :: cs => tidyFrom (if c = 10 then .plain else .comment) .gap cs
  | .string q slash, _, c :: cs =>
    if c = q then tidyFrom (if slash then .string q false else .plain) .gap cs
    else if c = 10 then false
    else tidyFrom (.string q (if c = 92 then !slash else false)) .gap cs
  | .plain, prev, c :: cs =>
    if 48 ≤ c ∧ c ≤ 57 then
      match prev with
      | .word => tidyFrom .plain .word cs
      | .gap => tidyFrom .plain .number cs
      | .number => tidyFrom .plain .number cs
    else if c = 32 ∨ (9 ≤ c ∧ c ≤ 13) then tidyFrom .plain .gap cs
    else if c = 35 then tidyFrom .comment .gap cs
    else if c = 34 ∨ c = 39 then tidyFrom (.string c false) .gap cs
    else if (65 ≤ c ∧ c ≤ 90) ∨ (97 ≤ c ∧ c ≤ 122) ∨ c = 95 then
      match prev with
      | .number => c ≠ 69 && c ≠ 101 && tidyFrom .plain .word cs
      | .gap => tidyFrom .plain .word cs
      | .word => tidyFrom .plain .word cs
    else if c = 46 ∨ c = 36 then
      match prev with
      | .word => tidyFrom .plain .word cs
      | .number => c = 36 && tidyFrom .plain .gap cs
      | .gap => tidyFrom .plain .gap cs
    else 33 ≤ c && c ≤ 126 && tidyFrom .plain .gap cs

def Tidy (text : List Nat) : Prop := tidyFrom .plain .gap text = true

instance (text : List Nat) : Decidable (Tidy text) := inferInstanceAs (Decidable (_ = _))

/-- No two quotes of a kind in a row: no empty string. -/
def noEmpty : List Nat → Bool
  | c :: d :: cs => !(c = d && (c = 34 || c = 39)) && noEmpty (d :: cs)
  | _ => true

def NoEmpty (text : List Nat) : Prop := noEmpty text = true

instance (text : List Nat) : Decidable (NoEmpty text) := inferInstanceAs (Decidable (_ = _))

end Verif.C76
