import Verif.Model.Basic

/-! Integers in memory.  /repo stores integers by casting a `uint8_t*` to an
integer pointer (e.g. runtime/lib/data.h:185) and by writing packed structs, on
a little-endian machine (x86-64). -/
namespace Verif

abbrev Bytes := List UInt8

/-- The `w` bytes of an unsigned integer, low byte first; higher bits are cut
off as by an assignment to a `w` byte integer. -/
def le : Nat → Nat → Bytes
  | 0, _ => []
  | w + 1, n => UInt8.ofNat n :: le w (n / 256)

/-- The unsigned integer stored in bytes, low byte first. -/
def leVal : Bytes → Nat
  | [] => 0
  | b :: bs => b.toNat + 256 * leVal bs

/-- The bit pattern `n` of `w` bytes read as a signed integer. -/
def signed (w n : Nat) : Int := if 2 * n < 256 ^ w then (n : Int) else (n : Int) - 256 ^ w

/-- Read `w` bytes at a pointer of which the remaining bytes of the buffer are
given; reading past them is undefined. -/
def getU (w : Nat) (bs : Bytes) : Res (Nat × Bytes) :=
  if bs.length < w then .ub "read past the end of the buffer"
  else .ok (leVal (bs.take w), bs.drop w)

/-- The same for a signed integer. -/
def getS (w : Nat) (bs : Bytes) : Res (Int × Bytes) :=
  (getU w bs).bind fun (n, r) => .ok (signed w n, r)

end Verif
