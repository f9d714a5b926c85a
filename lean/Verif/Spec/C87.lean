import Verif.Model.Keygen
import Verif.Spec.C68

/-! Specification for C87: what the name of a storage tells of its key. -/
namespace Verif.C87
open Random

/-- The keys which CREATE STORAGE can make. -/
def IsKey (k : Bytes) : Prop := k.length = 32 ∧ ∀ c ∈ k, C68.IsAlnum c

/-- A storage with this name and key can come about: its key is in the command if
`chosen`, otherwise it is made. -/
def Possible (chosen : Bool) (others : Nat) (name : List Nat) (key : Bytes) : Prop :=
  ∃ fuel r r' uuid, storage_create fuel others r true (if chosen then key else []) = .ok (r', uuid, key) ∧ Uuid.text uuid = name

/-- The name does not tell anything about the key: with every name that a storage can have,
it can have every key. -/
def Hidden (chosen : Bool) : Prop :=
  ∀ others name k, Possible chosen others name k → ∀ k', IsKey k' → Possible chosen others name k'

/-- C87 in full: for keys made and for keys given. -/
def Full : Prop := ∀ chosen, Hidden chosen

/-! ## Guessing

Two numbers that were drawn one after the other are sums of three words `x`, `y` and `z`
of the sequence: `y + x` and `z + y`.  `z` is made of `x` and `y`.  Of `y` it is enough to
guess the lower 26 bits. -/

/-- Nine more bits of `y`, when its lower 26 are `g`. -/
def better (o0 o1 g y : UInt64) : UInt64 :=
  let x := o0 - y
  let z := o1 - y
  let a := x ^^^ (x <<< 23)
  ((z ^^^ a ^^^ y ^^^ (a >>> 17)) <<< 26) + g

/-- All bits of `y`. -/
def middle (o0 o1 g : UInt64) : UInt64 :=
  better o0 o1 g (better o0 o1 g (better o0 o1 g (better o0 o1 g (better o0 o1 g g))))

/-- The state after the two numbers, by the guess `g`. -/
def after (o0 o1 : UInt64) (g : Nat) : Random :=
  let y := middle o0 o1 (UInt64.ofNat g)
  ⟨y, o1 - y⟩

/-- How many guesses there are. -/
def Guesses : Nat := 2 ^ 26

/-- The key of the storage with this uuid, by the guess `g`. -/
def guess (fuel others : Nat) (uuid : Uuid) (g : Nat) : Res (Random × Bytes) :=
  storage_key fuel (pass others (after (UInt64.ofNat uuid.a) (UInt64.ofNat uuid.b) g)) true []

/-- The state `d` numbers before. -/
def before (d : Nat) (r : Random) : Random := ⟨C68.word r.seed0 r.seed1 (C68.Cycle - d), C68.word r.seed0 r.seed1 (C68.Cycle - d + 1)⟩

/-- The key made `d` numbers before the random bytes with which something encrypted
begins, by the guess `g`. -/
def guessFile (fuel d : Nat) (stored : Bytes) (g : Nat) : Res (Random × Bytes) :=
  storage_key fuel (before (d + 2) (after (UInt64.ofNat (leVal (stored.take 8))) (UInt64.ofNat (leVal ((stored.drop 8).take 8))) g)) true []

end Verif.C87
