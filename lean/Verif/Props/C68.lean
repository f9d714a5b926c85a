import Verif.Proofs.C68

/-! C68: random numbers and the keys made of them. -/
namespace Verif.C68
open Random

/-- With every seed but zero: the numbers are those of the sequence, its states
repeat after 2^128 - 1 numbers and no sooner, all numbers come equally often in that
time (zero once less), the letters and digits asked for are made and nothing else is
written, and an encrypted storage gets a key of 32 of them, or keeps its own. -/
theorem C68_full (s0 s1 : UInt64) (h : ¬ (s0 = 0 ∧ s1 = 0)) : Full s0 s1 where
  draws := draws s0 s1
  repeats := repeats h
  even := even h
  alnum := alnum_ends h
  made := by
    obtain ⟨n, data, h1, h2⟩ := alnum_ends h 32 32 (by decide) (by decide)
    refine ⟨n, data, h1, fun fuel hf => ?_⟩
    rw [← h2 fuel hf]
    rfl
  kept := by
    intro fuel encrypted key hk
    unfold storage_key
    rcases hk with hk | hk
    · rw [hk]; rfl
    · rw [if_neg hk]; split <;> rfl

/-- The seed 1, 2: five numbers are drawn for the first four letters and digits,
`EE0P`, and not fewer. -/
example : ¬ ((1 : UInt64) = 0 ∧ (2 : UInt64) = 0) ∧
    random_generate_alnum 5 ⟨1, 2⟩ 32 4 = .ok (⟨140737514577987, 140771851513985⟩, [69, 69, 48, 80]) ∧
    random_generate_alnum 4 ⟨1, 2⟩ 32 4 = .abort "does not end" := by decide +kernel

/-- The key of a storage from the same seed. -/
example : (storage_key 30 ⟨1, 2⟩ true []) = .ok (⟨3658706470199166937, 146478214454883025⟩, [69, 69, 48, 80, 75, 51, 72, 110,
    89, 85, 120, 99, 100, 53, 111, 113, 86, 75, 55, 55, 110, 72, 83, 106, 56, 67, 82, 55, 90, 98, 70, 89]) := by decide +kernel

/-- With the seed zero there is no end to it. -/
theorem C68_zero (fuel cap : Nat) (size : Int) : random_generate_alnum fuel ⟨0, 0⟩ cap size = .abort "does not end" :=
  zero_from cap size [] fuel

/-- Nothing keeps the seed from being zero. -/
theorem C68_zero_opens (seed rand0 rand1 : UInt64) : ∃ dev0 dev1, random_open dev0 dev1 seed rand0 rand1 = ⟨0, 0⟩ :=
  ⟨seed ^^^ rand0, seed ^^^ rand1, by simp [random_open]⟩

/-- Asked for none, or for more than the array has, it writes past the end. -/
theorem C68_over (s0 s1 : UInt64) (h : ¬ (s0 = 0 ∧ s1 = 0)) (cap : Nat) (size : Int) (hs : size < 1 ∨ (cap : Int) < size) :
    ∃ n, ∀ fuel, n ≤ fuel → random_generate_alnum fuel ⟨s0, s1⟩ cap size = .ub "write past the end of the array" := by
  obtain ⟨n, hn⟩ := enough h (cap + 1)
  refine ⟨n, fun fuel hf => ?_⟩
  have := over_run (size := size) hs (by omega : cap < (letters s0 s1 n).length) n 0 fuel (by omega) (by rw [letters_zero]; simp) hf
  rw [letters_zero] at this
  exact this

/-- An array of four and none asked for. -/
example : ¬ ((1 : UInt64) = 0 ∧ (2 : UInt64) = 0) ∧ ((0 : Int) < 1 ∨ ((4 : Nat) : Int) < 0) ∧
    random_generate_alnum 9 ⟨1, 2⟩ 4 0 = .ub "write past the end of the array" := by decide +kernel

end Verif.C68
