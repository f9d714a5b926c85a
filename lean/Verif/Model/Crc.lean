import Verif.Model.CrcTables

/-! Model of runtime/lib/crc.c: the checksum in its two implementations. -/
namespace Verif.Crc

/-- Division of one bit of the CRC-32C instruction, in the reflected form: the
low bit leaves the register and the polynomial 0x82F63B78 is subtracted when it
was set. -/
def shift (c : BitVec 32) : BitVec 32 :=
  if c.getLsbD 0 then (c >>> 1) ^^^ 0x82f63b78#32 else c >>> 1

/-- A bit as a 32-bit word. -/
def bit (b : Bool) : BitVec 32 := if b then 1#32 else 0#32

/-- The processor's `crc32 r64, r/m8|r/m64` (bytes f2 0f 38 f0 and f2 48 0f 38
f1 at runtime/lib/crc.c:388 and 407): the operand's bits are divided starting
with the lowest.  Intel's manual states the same operation on bit-reflected
polynomials. -/
def insn (n : Nat) (c : BitVec 32) (x : Nat) : BitVec 32 :=
  (List.range n).foldl (fun c i => shift (c ^^^ bit (x.testBit i))) c

/-- crc32_hw_byte, runtime/lib/crc.c:383-396. -/
def crc32_hw_byte (c : BitVec 32) (bs : Bytes) : BitVec 32 :=
  bs.foldl (fun c b => insn 8 c b.toNat) c

/-- The `iquotient` loop of crc32_hw, runtime/lib/crc.c:404-412, then the
remaining bytes (413-415); `n` is what is left of `iquotient`. -/
def hw_loop : Nat → BitVec 32 → Bytes → BitVec 32
  | 0, c, bs => crc32_hw_byte c bs
  | n + 1, c, bs => hw_loop n (insn 64 c (leVal (bs.take 8))) (bs.drop 8)

/-- crc32_hw, runtime/lib/crc.c:398-416, for a length below 2^31 (`int len`). -/
def crc32_hw (c : BitVec 32) (bs : Bytes) : BitVec 32 := hw_loop (bs.length / 8) c bs

/-- One table step, runtime/lib/crc.c:337 and 362:
`crc_tableil8_o32[(crc ^ *p_buf++) & 0xFF] ^ (crc >> 8)`. -/
def tableStep (c : BitVec 32) (b : UInt8) : BitVec 32 :=
  o32.at ((c ^^^ BitVec.ofNat 32 b.toNat).setWidth 8) ^^^ (c >>> 8)

/-- Eight bytes by the eight tables, runtime/lib/crc.c:344-358. -/
def slice8 (c : BitVec 32) (bs : Bytes) : BitVec 32 :=
  let c := c ^^^ BitVec.ofNat 32 (leVal (bs.take 4))
  let w := BitVec.ofNat 32 (leVal ((bs.drop 4).take 4))
  let term1 := o88.at (c.setWidth 8) ^^^ o80.at ((c >>> 8).setWidth 8)
  let term2 := c >>> 16
  let c := term1 ^^^ o72.at (term2.setWidth 8) ^^^ o64.at ((term2 >>> 8).setWidth 8)
  let term1 := o56.at (w.setWidth 8) ^^^ o48.at ((w >>> 8).setWidth 8)
  let term2 := w >>> 16
  c ^^^ term1 ^^^ o40.at (term2.setWidth 8) ^^^ o32.at ((term2 >>> 8).setWidth 8)

/-- The middle and end loops of crc32_sw, runtime/lib/crc.c:341-364; `n` is what
is left of `running_len / 8`. -/
def sw_loop : Nat → BitVec 32 → Bytes → BitVec 32
  | 0, c, bs => bs.foldl tableStep c
  | n + 1, c, bs => sw_loop n (slice8 c (bs.take 8)) (bs.drop 8)

/-- crc32_sw, runtime/lib/crc.c:327-365, for a buffer at address `addr` and a
length below 2^31 (`int len`). -/
def crc32_sw (addr : Nat) (c : BitVec 32) (bs : Bytes) : BitVec 32 :=
  let initial := (4 - addr % 4) % 4
  let initial := if bs.length < initial then bs.length else initial
  let c := (bs.take initial).foldl tableStep c
  let rest := bs.drop initial
  sw_loop (rest.length / 8) c rest

/-- crc32, runtime/lib/crc.c:429-437: by instruction where the processor has it
(`hw`), by tables otherwise. -/
def crc32 (hw : Bool) (addr : Nat) (c : BitVec 32) (bs : Bytes) : BitVec 32 :=
  if hw then crc32_hw c bs else crc32_sw addr c bs

end Verif.Crc
