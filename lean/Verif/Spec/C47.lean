import Verif.Model.Lex

/-! C47: number units in commands. -/
namespace Verif.C47
open Lex

/-- What the units mean: microseconds and bytes. -/
def units : List (String × Nat) :=
  let us := 1
  let ms := 1000 * us
  let sec := 1000 * ms
  let min := 60 * sec
  let hour := 60 * min
  let day := 24 * hour
  let week := 7 * day
  let month := 30 * day
  let year := 12 * month
  [("us", us), ("microsecond", us), ("microseconds", us),
   ("ms", ms), ("millisecond", ms), ("milliseconds", ms),
   ("sec", sec), ("second", sec), ("seconds", sec),
   ("min", min), ("minute", min), ("minutes", min),
   ("hr", hour), ("hour", hour), ("hours", hour),
   ("day", day), ("days", day), ("week", week), ("weeks", week),
   ("month", month), ("months", month), ("year", year), ("years", year),
   ("kb", 1000), ("mb", 1000 ^ 2), ("gb", 1000 ^ 3), ("tb", 1000 ^ 4),
   ("kib", 1024), ("mib", 1024 ^ 2), ("gib", 1024 ^ 3), ("tib", 1024 ^ 4),
   ("k", 1024), ("m", 1024 ^ 2), ("g", 1024 ^ 3), ("t", 1024 ^ 4)]

/-- A decimal number and its value. -/
def IsNumber (s : List Nat) : Prop := s ≠ [] ∧ ∀ c ∈ s, 48 ≤ c ∧ c ≤ 57
def value (s : List Nat) : Nat := s.foldl (fun n c => n * 10 + (c - 48)) 0

/-- White space. -/
def IsBlank (s : List Nat) : Prop := ∀ c ∈ s, c = 32 ∨ (9 ≤ c ∧ c ≤ 13)

/-- `w` in any mix of upper and lower case. -/
def Spells (w : List Nat) (word : String) : Prop := w.map lower = bytes word

/-- A word ends here: end of text or an ASCII character that is not a letter,
digit, '_', '.' or '$'. -/
def EndsWord (rest : List Nat) : Prop :=
  ∀ c r, rest = c :: r → c < 128 ∧ isAlpha c = false ∧ isDigit c = false ∧ c ≠ 95 ∧ c ≠ 46 ∧ c ≠ 36

/-- The text `number unit rest` is read as the integer number * factor, followed
by `rest`; if that does not fit 64 bits it is an error. -/
def Means (word : String) (factor : Nat) (s : List Nat) : Prop :=
  ∀ blank w rest, IsBlank blank → Spells w word → EndsWord rest →
    if value s * factor < 18446744073709551616 then
      next (start (s ++ blank ++ w ++ rest)) = .ok (.int (value s * factor), start rest)
    else ∃ msg, next (start (s ++ blank ++ w ++ rest)) = .err msg

/-- The full property. -/
def Full : Prop := ∀ word factor s, (word, factor) ∈ units → IsNumber s → Means word factor s

/-- The words the code gets wrong. -/
def broken : List String := ["min", "month", "months", "year", "years"]

end Verif.C47
