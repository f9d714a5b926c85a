import Verif.Model.Messages

/-! C89: what a text of the program shows. -/

namespace Verif.C89
open Verif.Messages

/-- The value of a digit. -/
def digitValue (c : UInt8) : Nat := if c ≤ 57 then c.toNat - 48 else c.toNat - 87

/-- A digit of base 10 or 16. -/
def IsDigit (b : Nat) (c : UInt8) : Prop :=
  (48 ≤ c ∧ c ≤ 57) ∨ (b = 16 ∧ 97 ≤ c ∧ c ≤ 102)

/-- The text is the number in base `b`; zeros before it are allowed. -/
def Numeral (b : Nat) (ds : Bytes) (n : Nat) : Prop :=
  ds ≠ [] ∧ (∀ c ∈ ds, IsDigit b c) ∧ ds.foldl (fun a c => b * a + digitValue c) 0 = n

/-- A value that a text is to show. -/
inductive Value where
  | text (t : Bytes)
  | num (v : Int)
  | hex (n : Nat)
  | real (fixed : Nat → Bytes)
  | address (t : Bytes)

/-- How a value shows in a text: texts as they are, with spaces behind them where
columns are made, numbers as numerals. -/
def Shows : Value → Bytes → Prop
  | .text t, out => ∃ k, out = t ++ List.replicate k 32
  | .num v, out => (0 ≤ v ∧ Numeral 10 out v.natAbs) ∨
      (v < 0 ∧ ∃ ds, out = 45 :: ds ∧ Numeral 10 ds v.natAbs)
  | .hex n, out => Numeral 16 out n
  | .real f, out => ∃ n, out = f n
  | .address t, out => out = t

/-- A text without a zero byte, of a size that is an `int`. -/
def Plain (t : Bytes) : Prop := 0 ∉ t ∧ t.length < 2147483648

/-- How a value of a C type is given as arguments. -/
inductive Passed : Kind → Value → List Arg → Prop
  | text (t rest) : Plain t → Passed .text (.text t) [.int t.length, .str (some (t ++ rest))]
  | empty : Passed .text (.text []) [.int 0, .str none]
  | string (t rest) : Plain t → Passed .string (.text t) [.str (some (t ++ 0 :: rest))]
  | u64 (n : Nat) : n < 18446744073709551616 → Passed .u64 (.num n) [.ulong n]
  | i64 (v : Int) : -9223372036854775808 ≤ v → v < 9223372036854775808 →
      Passed .i64 (.num v) [.long v]
  | int (v : Int) : -2147483648 ≤ v → v < 2147483648 → Passed .int (.num v) [.int v]
  | u8 (n : Nat) : n < 256 → Passed .u8 (.num n) [.int n]
  | u32 (n : Nat) : n < 4294967296 → Passed .u32 (.num n) [.uint n]
  | hex32 (n : Nat) : n < 4294967296 → Passed .hex32 (.hex n) [.uint n]
  | hex16 (n : Nat) : n < 65536 → Passed .hex16 (.hex n) [.int n]
  | real (f) : Passed .real (.real f) [.double f]
  | pointer (t) : Passed .pointer (.address t) [.ptr t]
  | sized (t rest) : Plain t → Passed .sized (.text t) [.ulong t.length, .str (some (t ++ rest))]
  | full (t) : Plain t → Passed .full (.text t) [.str (some t)]

/-- All values of a call, and the list of its arguments. -/
inductive Call : List Kind → List Value → List Arg → Prop
  | nil : Call [] [] []
  | cons (k v a ks vs as) : Passed k v a → Call ks vs as → Call (k :: ks) (v :: vs) (a ++ as)

/-- Words and the values between them: `out` is the first word, the first value, the
second word and so on. -/
inductive Weave : List Bytes → List Value → Bytes → Prop
  | last (w) : Weave [w] [] w
  | next (w ws v vs t out) : Shows v t → Weave ws vs out → Weave (w :: ws) (v :: vs) (w ++ t ++ out)

/-- The words of a format: what is before, between and behind its conversions, each of
which is `%`, some of `-.*0123456789l`, and a letter. -/
inductive Split : Bytes → List Bytes → Prop
  | last (w) : 37 ∉ w → Split w [w]
  | next (w mid c rest ws) : 37 ∉ w → (∀ x ∈ mid, x ∈ Decode.cstr "-.*0123456789l") →
      c ∈ Decode.cstr "sduixfp" → Split rest ws → Split (w ++ 37 :: (mid ++ c :: rest)) (w :: ws)

/-- A call shows all its values in their order, between the words of its format, and
nothing else. -/
def Right (s : Site) : Prop :=
  ∃ words, Split (Decode.cstr s.fmt) words ∧
    ∀ vs args, Call s.kinds vs args → ∃ out, vprintf s.fmt args = .ok out ∧ Weave words vs out

/-- Every text of the program shows the values it is given. -/
def Full : Prop := ∀ s ∈ sites, Right s

end Verif.C89
