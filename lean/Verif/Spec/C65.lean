import Verif.Model.Log
import Verif.Model.Parse

/-! C65: messages are logged and reported safely, whatever their length. -/
namespace Verif.C65
open Data Decode Log

/-- The milliseconds of a time: three digits and a space. -/
def Stamp (usec : Nat) (s : Bytes) : Prop :=
  ∃ a b c : Nat, a < 10 ∧ b < 10 ∧ c < 10 ∧ usec / 1000 = 100 * a + 10 * b + c ∧
    s = [UInt8.ofNat (48 + a), UInt8.ofNat (48 + b), UInt8.ofNat (48 + c), 32]

/-- A line is written to the file and to the standard output, as configured. -/
def outputs (l : Logger) (b : Bytes) : List Out :=
  (if l.enable ∧ l.fd then [.file b] else []) ++ (if l.enable ∧ l.to_stdout then [.stdout b] else [])

/-- What logging may be given: a buffer of 1024 bytes, a date like
`16.11.26 21:35:18.`, a prefix as used (`` or `error: `). -/
structure Given (stack date : Bytes) (usec : Nat) (pfx : Bytes) : Prop where
  stack : stack.length = 1024
  date : date.length = 18
  usec : usec < 1000000
  pfx : pfx = [] ∨ pfx = cstr "error: "

/-- The message with date, time, prefix and the end of line fits in the buffer
(and the byte for the end of the string). -/
def Short (pfx msg : Bytes) : Prop := 18 + 4 + pfx.length + msg.length + 1 ≤ 1023

/-- The message is logged in one line; if it is too long, its beginning. -/
def Logged (l : Logger) (stack date : Bytes) (usec : Nat) (pfx msg : Bytes) : Prop :=
  ∃ s m, Stamp usec s ∧ m <+: msg ∧ (Short pfx msg → m = msg) ∧
    logger_write l stack date usec (some pfx) msg = .ok (outputs l (date ++ s ++ pfx ++ m ++ [10]))

/-- The text of the error is the message, or its first 255 bytes. -/
def Reported (e : Error) (l : Logger) (stack date : Bytes) (usec : Nat) (msg : Bytes) : Prop :=
  ∃ out e', error_throw_as e l stack date usec msg = .ok (out, e') ∧ monotone_error e' = .ok (msg.take 255)

/-- C65 in full. -/
def Full : Prop :=
  (∀ l stack date usec pfx msg, Given stack date usec pfx → Logged l stack date usec pfx msg) ∧
  ∀ e l stack date usec msg, e.text.length = 256 → (0 ∉ msg) → Given stack date usec (cstr "error: ") →
    Reported e l stack date usec msg

end Verif.C65
