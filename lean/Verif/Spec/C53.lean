import Verif.Model.Lex

/-! C53: reading the tokens of a command never leaves the tokenizer's memory. -/
namespace Verif.C53
open Lex

/-- What a parser does with the tokenizer: take a token, take it only if it is
of a kind, take it only if it is a name. -/
inductive Op where
  | next
  | lexIf (p : Token → Bool)
  | lexIfName

def step (l : Lex) : Op → Res Lex
  | .next => (Lex.next l).bind fun (_, l) => .ok l
  | .lexIf p => (Lex.lexIf p l).bind fun (_, l) => .ok l
  | .lexIfName => (Lex.lexIfName l).bind fun (_, l) => .ok l

def run : Lex → List Op → Res Lex
  | l, [] => .ok l
  | l, op :: ops => (step l op).bind fun l => run l ops

/-- Neither a failed assert (an out-of-bounds store without asserts) nor
undefined behaviour. -/
def Safe {α : Type} (r : Res α) : Prop := (∀ w, r ≠ .abort w) ∧ ∀ w, r ≠ .ub w

/-- The full property: every text, every parser. -/
def Full : Prop := ∀ text, (∀ c ∈ text, c < 256) → ∀ ops, Safe (run (start text) ops)

/-- Where a position of a text lies: between tokens or in one, in a `#` comment,
or in a string closed by `q` (and just after a backslash). -/
inductive Mode where
  | plain
  | comment
  | string (q : Nat) (slash : Bool)

/-- What the character before was part of. -/
inductive Prev where
  | gap
  | number
  | word

/-- A text is calm if nowhere four integers follow each other with only white
space and comments between them, and no byte of 128 or more lies outside
strings and comments.  `n` counts the integers of the row so far.  What
follows a string that is not closed on its line is not looked at: the text is
refused there. -/
def calmFrom : Mode → Prev → Nat → List Nat → Bool
  | _, _, _, [] => true
  | .comment, _, n, c :: cs => calmFrom (if c = 10 then .plain else .comment) .gap n cs
  | .string q slash, _, _, c :: cs =>
    if c = q then calmFrom (if slash then .string q false else .plain) .gap 0 cs
    else if c = 10 then true
    else calmFrom (.string q (if c = 92 then !slash else false)) .gap 0 cs
  | .plain, prev, n, c :: cs =>
    c < 128 &&
    if 48 ≤ c ∧ c ≤ 57 then
      match prev with
      | .gap => n < 3 && calmFrom .plain .number (n + 1) cs
      | .number => calmFrom .plain .number n cs
      | .word => calmFrom .plain .word 0 cs
    else if c = 32 ∨ (9 ≤ c ∧ c ≤ 13) then calmFrom .plain .gap n cs
    else if c = 35 then calmFrom .comment .gap n cs
    else if c = 34 ∨ c = 39 then calmFrom (.string c false) .gap 0 cs
    else if (65 ≤ c ∧ c ≤ 90) ∨ (97 ≤ c ∧ c ≤ 122) ∨ c = 95 then calmFrom .plain .word 0 cs
    else if c = 46 ∨ c = 36 then
      match prev with
      | .word => calmFrom .plain .word 0 cs
      | _ => calmFrom .plain .gap 0 cs
    else calmFrom .plain .gap 0 cs

def Calm (text : List Nat) : Prop := calmFrom .plain .gap 0 text = true

instance (text : List Nat) : Decidable (Calm text) := inferInstanceAs (Decidable (_ = _))

end Verif.C53
