import Verif.Spec.C54
import Verif.Proofs.Crc

/-! C54: one checksum everywhere. -/
namespace Verif.C54

/-- Every way of computing the checksum gives the bit by bit remainder. -/
theorem C54_one_checksum : Full := by
  intro c l h
  induction l generalizing c with
  | nil => rfl
  | cons p l ih =>
    obtain ⟨hw, addr, bs⟩ := p
    simp only [chunks, List.flatMap_cons]
    rw [Crc.crc32_eq, ih _ fun p hp => h p (List.mem_cons_of_mem _ hp), Crc.crc_append]

/-- A database written on a processor with the instruction is read on one
without. -/
theorem C54_same_everywhere (c : BitVec 32) (bs : Bytes) (addr addr' : Nat) (_ : bs.length < 2147483648) :
    Crc.crc32 true addr c bs = Crc.crc32 false addr' c bs := by
  rw [Crc.crc32_eq, Crc.crc32_eq]

/-- Any burst of up to 32 bits changes the checksum. -/
theorem C54_bursts_change_it (hw : Bool) (addr : Nat) (c : BitVec 32) (x y : Bytes) (h : CrcSpec.Burst x y) :
    Crc.crc32 hw addr c x ≠ Crc.crc32 hw addr c y := by
  rw [Crc.crc32_eq, Crc.crc32_eq]
  exact Crc.burst_detected c h

/-- "123456789" in two pieces, one at an odd address. -/
example : chunks (0xffffffff#32) [(true, 0, [0x31, 0x32, 0x33]), (false, 3, [0x34, 0x35, 0x36, 0x37, 0x38, 0x39])]
    = 0xe3069283#32 ^^^ 0xffffffff#32 := by decide +kernel

example : CrcSpec.Burst [1, 2, 3, 4, 5, 6] [1, 2, 7, 0, 0x85, 6] :=
  ⟨(CrcSpec.bits [1, 2]), CrcSpec.bits [3, 4, 5], CrcSpec.bits [7, 0, 0x85], CrcSpec.bits [6],
    by decide +kernel, by decide +kernel, by decide +kernel, by decide +kernel, by decide +kernel⟩

end Verif.C54
