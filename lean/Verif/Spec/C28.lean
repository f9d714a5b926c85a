import Verif.Model.FileName

/-! C28: partition file names identify partition and state. -/
namespace Verif.C28
open FileName

/-- A file name decodes exactly to what it was written for: `name` is accepted
as (min, state) if and only if it is the name of (min, state). -/
def Identifies (name : List Nat) : Prop :=
  ∃ r, recoverId name = .ok r ∧
    ∀ min st, min < 18446744073709551616 → (r = some (min, st) ↔ name = idName min st)

/-- A file name: bytes except NUL. -/
def IsName (name : List Nat) : Prop := ∀ c ∈ name, 0 < c ∧ c < 256

/-- The full property, for every file name. -/
def Full : Prop := ∀ name, IsName name → Identifies name

/-- The characters before the first dot. -/
def stem (name : List Nat) : List Nat := name.takeWhile (· ≠ 46)

/-- The number a digit string stands for. -/
def number (s : List Nat) : Nat := s.foldl (fun n c => n * 10 + (c - 48)) 0

/-- Restriction of the partial theorem: ASCII names whose part before the first
dot has 20 characters and, as a number, fits 64 bits. -/
def Tame (name : List Nat) : Prop :=
  (∀ c ∈ name, c < 128) ∧ (stem name).length = 20 ∧ number (stem name) < 18446744073709551616

end Verif.C28
