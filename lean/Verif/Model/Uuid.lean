import Verif.Model.Basic

/-! Model of runtime/lib/uuid.c. -/
namespace Verif

/-- `struct Uuid`, runtime/lib/uuid.h:20-24. -/
structure Uuid where
  a : Nat
  b : Nat
deriving Repr, DecidableEq

/-- `struct uuid_bits`, runtime/lib/uuid.c:20-28: the same 16 bytes read as
packed fields (little endian). -/
structure UuidBits where
  a : Nat
  b : Nat
  c : Nat
  d : Nat
  e : Nat
  f : Nat
deriving Repr, DecidableEq

namespace Uuid

/-- `(uuid_bits_t*)self`, reading. -/
def bits (u : Uuid) : UuidBits :=
  { a := u.a % 4294967296, b := u.a / 4294967296 % 65536, c := u.a / 281474976710656 % 65536,
    d := u.b % 65536, e := u.b / 65536 % 65536, f := u.b / 4294967296 % 4294967296 }

/-- `(uuid_bits_t*)self` after writing the fields. -/
def ofBits (x : UuidBits) : Uuid :=
  { a := x.a + 4294967296 * x.b + 281474976710656 * x.c,
    b := x.d + 65536 * x.e + 4294967296 * x.f }

/-- One digit of printf's `%x`. -/
def hexChar (d : Nat) : Nat := if d < 10 then 48 + d else 87 + d

/-- printf's `%0<w>x` for values below 16^w. -/
def hexPad : Nat → Nat → List Nat
  | 0, _ => []
  | w + 1, n => hexChar (n / 16 ^ w % 16) :: hexPad w n

/-- uuid_to_string, runtime/lib/uuid.c:44-53: characters without the final
NUL (37 bytes are always enough). -/
def text (u : Uuid) : List Nat :=
  let x := u.bits
  hexPad 8 x.a ++ 45 :: (hexPad 4 x.b ++ 45 :: (hexPad 4 x.c ++ 45 :: (hexPad 4 x.d ++ 45 ::
    (hexPad 4 x.e ++ hexPad 8 x.f))))

/-- The digit conversion of uuid_from_string_nothrow, uuid.c:100-110; `none` is
`return -1`. -/
def hexDigit (c : Nat) : Option Nat :=
  if 48 ≤ c ∧ c ≤ 57 then some (c - 48)
  else if 97 ≤ c ∧ c ≤ 102 then some (c - 97 + 10)
  else if 65 ≤ c ∧ c ≤ 70 then some (c - 65 + 10)
  else none

/-- `value = (value << 4) | (byte & 0xF)` on 64 bits, uuid.c:111. -/
def shiftIn (value d : Nat) : Nat := (value * 16) % 18446744073709551616 + d % 16

/-- The loop of uuid_from_string_nothrow, uuid.c:65-115, from position `i` on
the characters `string[i..35]`.  The stores truncate to the field width. -/
def parseLoop : Nat → List Nat → UuidBits → Nat → Option (UuidBits × Nat)
  | _, [], x, value => some (x, value)
  | i, ch :: s, x, value =>
    if i = 8 then
      if ch ≠ 45 then none else parseLoop (i + 1) s { x with a := value % 4294967296 } 0
    else if i = 13 then
      if ch ≠ 45 then none else parseLoop (i + 1) s { x with b := value % 65536 } 0
    else if i = 18 then
      if ch ≠ 45 then none else parseLoop (i + 1) s { x with c := value % 65536 } 0
    else if i = 23 then
      if ch ≠ 45 then none else parseLoop (i + 1) s { x with d := value % 65536 } 0
    else
      let (x, value) := if i = 28 then ({ x with e := value % 65536 }, 0) else (x, value)
      match hexDigit ch with
      | none => none
      | some d => parseLoop (i + 1) s x (shiftIn value d)

/-- uuid_from_string_nothrow, uuid.c:55-118: `none` is the result -1.  The
partly written fields of a failed call are not modelled (the callers,
uuid_from_string and storage code, raise an error then). -/
def fromString (self : Uuid) (s : List Nat) : Option Uuid :=
  if s.length < 36 then none
  else
    match parseLoop 0 (s.take 36) self.bits 0 with
    | none => none
    | some (x, value) => some (ofBits { x with f := value % 4294967296 })

end Uuid
end Verif
