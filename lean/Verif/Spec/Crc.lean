import Verif.Model.Bytes

/-! Reference for checksums: CRC-32C by long division, bit by bit, the lowest
bit of each byte first, without initial or final inversion. -/
namespace Verif.CrcSpec

/-- The bits of a byte, lowest first. -/
def byteBits (b : UInt8) : List Bool := (List.range 8).map fun i => b.toNat.testBit i

/-- The bits of a byte string in transmission order. -/
def bits (bs : Bytes) : List Bool := bs.flatMap byteBits

/-- Divide one more bit: the reflected polynomial of CRC-32C is 0x82F63B78. -/
def divide (r : BitVec 32) (b : Bool) : BitVec 32 :=
  if r.getLsbD 0 != b then (r >>> 1) ^^^ 0x82f63b78#32 else r >>> 1

/-- The checksum of a byte string continued from `r`. -/
def crc (r : BitVec 32) (bs : Bytes) : BitVec 32 := (bits bs).foldl divide r

/-- `y` differs from `x`, and only inside a window of at most 32 consecutive
bits. -/
def Burst (x y : Bytes) : Prop :=
  ∃ pre mid mid' post : List Bool, bits x = pre ++ mid ++ post ∧ bits y = pre ++ mid' ++ post ∧
    mid.length = mid'.length ∧ mid.length ≤ 32 ∧ mid ≠ mid'

end Verif.CrcSpec
