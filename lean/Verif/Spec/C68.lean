import Verif.Model.Random

/-! Specification for C68: the random numbers as a sequence given by a recurrence,
and keys as the first letters and digits of it. -/
namespace Verif.C68
open Random

/-- The sequence which begins with the two words of the seed: each word is made of
the two before it. -/
def word (s0 s1 : UInt64) : Nat → UInt64
  | 0 => s0
  | 1 => s1
  | n + 2 =>
    let y := word s0 s1 n ^^^ (word s0 s1 n <<< 23)
    let z := word s0 s1 (n + 1)
    y ^^^ z ^^^ (y >>> 17) ^^^ (z >>> 26)

/-- The `n`-th random number, from 0: a sum of two words. -/
def number (s0 s1 : UInt64) (n : Nat) : UInt64 := word s0 s1 (n + 1) + word s0 s1 (n + 2)

/-- Letters and digits. -/
def IsAlnum (c : UInt8) : Prop :=
  (∃ i : Nat, i < 10 ∧ c.toNat = '0'.toNat + i) ∨ (∃ i : Nat, i < 26 ∧ c.toNat = 'A'.toNat + i) ∨ (∃ i : Nat, i < 26 ∧ c.toNat = 'a'.toNat + i)

/-- The `k`-th byte of a number, from the lowest. -/
def byteOf (v : UInt64) (k : Nat) : UInt8 := UInt8.ofNat (v.toNat / 256 ^ k)

/-- The bytes of the first `n` numbers, in order. -/
def stream (s0 s1 : UInt64) (n : Nat) : Bytes :=
  (List.range (8 * n)).map fun k => byteOf (number s0 s1 (k / 8)) (k % 8)

open Classical in
/-- The letters and digits among the bytes of the first `n` numbers. -/
noncomputable def letters (s0 s1 : UInt64) (n : Nat) : Bytes := (stream s0 s1 n).filter fun c => decide (IsAlnum c)

/-- How long it takes until the words repeat. -/
def Cycle : Nat := 2 ^ 128 - 1

/-- The words repeat after exactly `Cycle` numbers, and no sooner. -/
def Repeats (s0 s1 : UInt64) : Prop :=
  ∀ i j, (word s0 s1 i = word s0 s1 j ∧ word s0 s1 (i + 1) = word s0 s1 (j + 1)) ↔ i % Cycle = j % Cycle

/-- Exactly `n` numbers are so. -/
def Size (p : Nat → Prop) (n : Nat) : Prop := ∃ l : List Nat, l.Nodup ∧ l.length = n ∧ ∀ k, k ∈ l ↔ p k

/-- In each `Cycle` of numbers, each number comes equally often; zero, once less. -/
def Even (s0 s1 : UInt64) : Prop :=
  ∀ (v : UInt64) (first : Nat),
    Size (fun k => first ≤ k ∧ k < first + Cycle ∧ number s0 s1 k = v) (if v = 0 then 2 ^ 64 - 1 else 2 ^ 64)

/-- Draw `n` numbers. -/
def draw : Nat → Random → Random × List UInt64
  | 0, r => (r, [])
  | n + 1, r =>
    let (r, xs) := draw n r
    let (r, v) := random_generate r
    (r, xs ++ [v])

/-- `data` is made of the first `size` letters and digits of the stream of numbers,
and no more of the numbers were drawn, `n`, than had to be. -/
def FirstLetters (s0 s1 : UInt64) (size n : Nat) (data : Bytes) : Prop :=
  data.length = size ∧ (∀ c ∈ data, IsAlnum c) ∧ data = (letters s0 s1 n).take size ∧ ∀ m, m < n → (letters s0 s1 m).length < size

/-- What is so with a seed. -/
structure Full (s0 s1 : UInt64) : Prop where
  /-- The numbers drawn are those of the sequence. -/
  draws : ∀ n, draw n ⟨s0, s1⟩ = (⟨word s0 s1 n, word s0 s1 (n + 1)⟩, (List.range n).map (number s0 s1))
  repeats : Repeats s0 s1
  even : Even s0 s1
  /-- Letters and digits: it ends and fills the array. -/
  alnum : ∀ cap size : Nat, 1 ≤ size → size ≤ cap → ∃ n data, FirstLetters s0 s1 size n data ∧
    ∀ fuel, n ≤ fuel → random_generate_alnum fuel ⟨s0, s1⟩ cap size = .ok (⟨word s0 s1 n, word s0 s1 (n + 1)⟩, data)
  /-- An encrypted storage without a key gets one of 32. -/
  made : ∃ n data, FirstLetters s0 s1 32 n data ∧
    ∀ fuel, n ≤ fuel → storage_key fuel ⟨s0, s1⟩ true [] = .ok (⟨word s0 s1 n, word s0 s1 (n + 1)⟩, data)
  /-- A key which is given is kept, and none is made for no encryption. -/
  kept : ∀ fuel encrypted key, encrypted = false ∨ key ≠ [] → storage_key fuel ⟨s0, s1⟩ encrypted key = .ok (⟨s0, s1⟩, key)

end Verif.C68
