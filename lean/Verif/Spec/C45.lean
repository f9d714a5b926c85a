import Verif.Model.Uuid

/-! C45: UUID text round trip. -/
namespace Verif.C45

/-- ASCII lower case. -/
def lower (c : Nat) : Nat := if 65 ≤ c ∧ c ≤ 90 then c + 32 else c

/-- A legal uuid value: 128 bits. -/
def Legal (u : Uuid) : Prop := u.a < 18446744073709551616 ∧ u.b < 18446744073709551616

/-- Text `s` is accepted as `u` exactly when it is the text form of `u`, up to
upper and lower case. -/
def ParsesExactly (s : List Nat) : Prop :=
  ∀ self u : Uuid, Legal u → (Uuid.fromString self s = some u ↔ s.map lower = Uuid.text u)

/-- The full property, for all texts. -/
def Full : Prop := ∀ s, ParsesExactly s

end Verif.C45
