import Verif.Model.Crc
import Verif.Spec.Crc

/-! C54: the checksum of given bytes is the same on every processor, at every
memory address and however the bytes are divided over calls. -/
namespace Verif.C54

/-- The running checksum of pieces given one after the other, each computed at
its own address and with or without the processor instruction. -/
def chunks (c : BitVec 32) : List (Bool × Nat × Bytes) → BitVec 32
  | [] => c
  | (hw, addr, bs) :: r => chunks (Crc.crc32 hw addr c bs) r

/-- The statement in full. -/
def Full : Prop :=
  ∀ (c : BitVec 32) (l : List (Bool × Nat × Bytes)),
    (∀ p ∈ l, p.2.2.length < 2147483648) →
    chunks c l = CrcSpec.crc c (l.flatMap fun p => p.2.2)

end Verif.C54
