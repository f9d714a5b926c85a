import Verif.Model.Bytes

/-! Model of runtime/lib/data.h, runtime/lib/encode.h and runtime/lib/data_op.h:
the typed binary encoding.  A `uint8_t* pos` is the list of bytes from it to the
end of its buffer; a read past that end is undefined.  A write returns the bytes
it stores (encode.h reserves room for `data_size_*` bytes first, see
`C34.sizeOf`). -/
namespace Verif
namespace Data

/-! The type bytes, runtime/lib/data.h:16-48 (as notation for the numbers). -/
scoped notation "MN_NULL" => (0 : Nat)
scoped notation "MN_TRUE" => (1 : Nat)
scoped notation "MN_FALSE" => (2 : Nat)
scoped notation "MN_REAL32" => (3 : Nat)
scoped notation "MN_REAL64" => (4 : Nat)
scoped notation "MN_INTV0" => (5 : Nat)
scoped notation "MN_INTV31" => (37 : Nat)
scoped notation "MN_INT8" => (38 : Nat)
scoped notation "MN_INT16" => (39 : Nat)
scoped notation "MN_INT32" => (40 : Nat)
scoped notation "MN_INT64" => (41 : Nat)
scoped notation "MN_ARRAYV0" => (42 : Nat)
scoped notation "MN_ARRAYV31" => (74 : Nat)
scoped notation "MN_ARRAY8" => (75 : Nat)
scoped notation "MN_ARRAY16" => (76 : Nat)
scoped notation "MN_ARRAY32" => (77 : Nat)
scoped notation "MN_MAPV0" => (78 : Nat)
scoped notation "MN_MAPV31" => (110 : Nat)
scoped notation "MN_MAP8" => (111 : Nat)
scoped notation "MN_MAP16" => (112 : Nat)
scoped notation "MN_MAP32" => (113 : Nat)
scoped notation "MN_STRINGV0" => (114 : Nat)
scoped notation "MN_STRINGV31" => (146 : Nat)
scoped notation "MN_STRING8" => (147 : Nat)
scoped notation "MN_STRING16" => (148 : Nat)
scoped notation "MN_STRING32" => (149 : Nat)

/-- One type byte. -/
def tag (t : Nat) : UInt8 := UInt8.ofNat t

/-- data_size_of, data.h:112-124. -/
def data_size_of (value : Nat) : Nat :=
  if value ≤ 31 then 1
  else if value ≤ 127 then 2
  else if value ≤ 32767 then 3
  else if value ≤ 2147483647 then 5
  else 9

/-- data_size_map, data.h:127-131. -/
def data_size_map (n : Nat) : Nat := data_size_of n
/-- data_size_array, data.h:217-221. -/
def data_size_array (n : Nat) : Nat := data_size_of n
/-- data_size_integer, data.h:307-311. -/
def data_size_integer (n : Nat) : Nat := data_size_of n
/-- data_size_string, data.h:524-528. -/
def data_size_string (n : Nat) : Nat := data_size_of n + n
/-- data_size_bool and data_size_null, data.h:392-396, 495-499. -/
def data_size_bool : Nat := 1
def data_size_null : Nat := 1

/-- The four branches shared by data_write_map (data.h:173-199),
data_write_array (data.h:263-289) and the header of data_write_raw
(data.h:582-607), with the type bytes as parameters. -/
def writeCount (v0 t8 t16 t32 : Nat) (n : Nat) : Bytes :=
  if n ≤ 31 then [tag (v0 + n)]
  else if n ≤ 127 then tag t8 :: le 1 n
  else if n ≤ 32767 then tag t16 :: le 2 n
  else tag t32 :: le 4 n

/-- The switch shared by data_read_map (data.h:139-163), data_read_array
(data.h:229-253) and data_read_raw (data.h:536-559). -/
def readCount (v0 v31 t8 t16 t32 : Nat) : Bytes → Res (Int × Bytes)
  | [] => .ub "read past the end of the buffer"
  | t :: rest =>
    if v0 ≤ t.toNat ∧ t.toNat ≤ v31 then .ok ((t.toNat : Int) - v0, rest)
    else if t.toNat = t8 then getS 1 rest
    else if t.toNat = t16 then getS 2 rest
    else if t.toNat = t32 then getS 4 rest
    else .err "expected data type"

/-- data_write_map, data.h:173-199. -/
def data_write_map (n : Nat) : Bytes := writeCount MN_MAPV0 MN_MAP8 MN_MAP16 MN_MAP32 n
/-- data_write_map32, data.h:201-208. -/
def data_write_map32 (n : Nat) : Bytes := tag MN_MAP32 :: le 4 n
/-- data_read_map, data.h:139-163. -/
def data_read_map (bs : Bytes) : Res (Int × Bytes) := readCount MN_MAPV0 MN_MAPV31 MN_MAP8 MN_MAP16 MN_MAP32 bs

/-- data_write_array, data.h:263-289. -/
def data_write_array (n : Nat) : Bytes := writeCount MN_ARRAYV0 MN_ARRAY8 MN_ARRAY16 MN_ARRAY32 n
/-- data_write_array32, data.h:291-298. -/
def data_write_array32 (n : Nat) : Bytes := tag MN_ARRAY32 :: le 4 n
/-- data_read_array, data.h:229-253. -/
def data_read_array (bs : Bytes) : Res (Int × Bytes) :=
  readCount MN_ARRAYV0 MN_ARRAYV31 MN_ARRAY8 MN_ARRAY16 MN_ARRAY32 bs

/-- data_write_integer, data.h:351-383; the argument is `uint64_t`. -/
def data_write_integer (n : Nat) : Bytes :=
  if n ≤ 31 then [tag (MN_INTV0 + n)]
  else if n ≤ 127 then tag MN_INT8 :: le 1 n
  else if n ≤ 32767 then tag MN_INT16 :: le 2 n
  else if n ≤ 2147483647 then tag MN_INT32 :: le 4 n
  else tag MN_INT64 :: le 8 n

/-- data_read_integer, data.h:313-341. -/
def data_read_integer : Bytes → Res (Int × Bytes)
  | [] => .ub "read past the end of the buffer"
  | t :: rest =>
    if MN_INTV0 ≤ t.toNat ∧ t.toNat ≤ MN_INTV31 then .ok ((t.toNat : Int) - MN_INTV0, rest)
    else if t.toNat = MN_INT8 then getS 1 rest
    else if t.toNat = MN_INT16 then getS 2 rest
    else if t.toNat = MN_INT32 then getS 4 rest
    else if t.toNat = MN_INT64 then getS 8 rest
    else .err "expected data type 'int'"

/-- data_write_bool, data.h:420-429. -/
def data_write_bool (b : Bool) : Bytes := [if b then tag MN_TRUE else tag MN_FALSE]

/-- data_read_bool, data.h:398-410. -/
def data_read_bool : Bytes → Res (Bool × Bytes)
  | [] => .ub "read past the end of the buffer"
  | t :: rest =>
    if t.toNat = MN_TRUE then .ok (true, rest)
    else if t.toNat = MN_FALSE then .ok (false, rest)
    else .err "expected data type 'bool'"

/-- data_write_null, data.h:509-515. -/
def data_write_null : Bytes := [tag MN_NULL]

/-- data_read_null, data.h:501-507. -/
def data_read_null : Bytes → Res Bytes
  | [] => .ub "read past the end of the buffer"
  | t :: rest => if t.toNat ≠ MN_NULL then .err "expected data type 'null'" else .ok rest

/-! Reals: a `double` is its IEEE 754 bit pattern (0 .. 2^64-1), a `float` its
32-bit pattern. -/

/-- `value >= FLT_MIN && value <= FLT_MAX`, data.h:441 and 475.  Positive doubles
are ordered like their bit patterns; zero, negative values, infinity and NaN
fail the test. -/
def isFloatRange (d : Nat) : Bool := 0x3810000000000000 ≤ d && d ≤ 0x47EFFFFFE0000000

/-- `(float)value` for a value in that range: the fraction is rounded to 23 bits,
to nearest, ties to even (the default rounding mode); the exponent bias changes
from 1023 to 127. -/
def toFloat (d : Nat) : Nat :=
  let q := d / 2 ^ 29
  let r := d % 2 ^ 29
  let q := if r > 2 ^ 28 ∨ (r = 2 ^ 28 ∧ q % 2 = 1) then q + 1 else q
  q - 896 * 2 ^ 23

/-- `(double)f`, exact.  Zeros, subnormal, normal, infinite and NaN values in
turn (the payload of a NaN is kept). -/
def ofFloat (f : Nat) : Nat :=
  let s := f / 2 ^ 31
  let e := f / 2 ^ 23 % 2 ^ 8
  let m := f % 2 ^ 23
  let body :=
    if e = 0 then
      if m = 0 then 0
      else (1023 - 149 + m.log2) * 2 ^ 52 + (m - 2 ^ m.log2) * 2 ^ (52 - m.log2)
    else if e = 255 then 2047 * 2 ^ 52 + m * 2 ^ 29
    else (e + 896) * 2 ^ 52 + m * 2 ^ 29
  s * 2 ^ 63 + body

/-- data_size_real, data.h:438-444. -/
def data_size_real (d : Nat) : Nat := if isFloatRange d then 5 else 9

/-- data_write_real, data.h:471-486. -/
def data_write_real (d : Nat) : Bytes :=
  if isFloatRange d then tag MN_REAL32 :: le 4 (toFloat d) else tag MN_REAL64 :: le 8 d

/-- data_read_real, data.h:445-461. -/
def data_read_real : Bytes → Res (Nat × Bytes)
  | [] => .ub "read past the end of the buffer"
  | t :: rest =>
    if t.toNat = MN_REAL32 then (getU 4 rest).bind fun (f, r) => .ok (ofFloat f, r)
    else if t.toNat = MN_REAL64 then getU 8 rest
    else .err "expected data type 'real'"

/-- data_write_raw, data.h:582-611 (also data_write_string, data.h:613-617). -/
def data_write_raw (s : Bytes) : Bytes :=
  writeCount MN_STRINGV0 MN_STRING8 MN_STRING16 MN_STRING32 s.length ++ s

/-- data_read_raw, data.h:536-562 (also data_read_string and
data_read_string_copy, data.h:564-580).  A negative size (only from bytes not
produced by the writers) moves `pos` backwards; that is not followed further. -/
def data_read_raw (bs : Bytes) : Res (Bytes × Bytes) :=
  (readCount MN_STRINGV0 MN_STRINGV31 MN_STRING8 MN_STRING16 MN_STRING32 bs).bind fun (size, r) =>
    if size < 0 then .ub "negative string size"
    else if r.length < size.toNat then .ub "string past the end of the buffer"
    else .ok (r.take size.toNat, r.drop size.toNat)

/-- data_is_map .. data_is_string, data.h:210-214, 300-304, 385-389, 431-435,
488-492, 517-521, 628-632, on the type byte. -/
def data_is_map (t : Nat) : Bool := MN_MAPV0 ≤ t && t ≤ MN_MAP32
def data_is_array (t : Nat) : Bool := MN_ARRAYV0 ≤ t && t ≤ MN_ARRAY32
def data_is_integer (t : Nat) : Bool := MN_INTV0 ≤ t && t ≤ MN_INT64
def data_is_bool (t : Nat) : Bool := t = MN_TRUE || t = MN_FALSE
def data_is_real (t : Nat) : Bool := t = MN_REAL32 || t = MN_REAL64
def data_is_null (t : Nat) : Bool := t = MN_NULL
def data_is_string (t : Nat) : Bool := MN_STRINGV0 ≤ t && t ≤ MN_STRING32

theorem getS_shorter {w : Nat} {bs r : Bytes} {v : Int} (h : getS w bs = .ok (v, r)) :
    r.length ≤ bs.length := by
  unfold getS getU at h
  split at h
  · simp at h
  · simp only [Res.bind_ok, Res.ok.injEq, Prod.mk.injEq] at h
    rw [← h.2]; simp

theorem readCount_shorter {v0 v31 t8 t16 t32 : Nat} {bs r : Bytes} {n : Int}
    (h : readCount v0 v31 t8 t16 t32 bs = .ok (n, r)) : r.length < bs.length := by
  cases bs with
  | nil => simp [readCount] at h
  | cons t rest =>
    simp only [readCount] at h
    repeat' split at h
    all_goals first
      | (simp only [Res.ok.injEq, Prod.mk.injEq] at h; rw [← h.2]; simp)
      | (have := getS_shorter h; simp; omega)
      | simp at h

theorem getU_shorter {w : Nat} {bs r : Bytes} {v : Nat} (h : getU w bs = .ok (v, r)) :
    r.length ≤ bs.length := by
  unfold getU at h
  split at h
  · simp at h
  · simp only [Res.ok.injEq, Prod.mk.injEq] at h
    rw [← h.2]; simp

theorem data_read_integer_shorter {bs r : Bytes} {n : Int}
    (h : data_read_integer bs = .ok (n, r)) : r.length < bs.length := by
  cases bs with
  | nil => simp [data_read_integer] at h
  | cons t rest =>
    simp only [data_read_integer] at h
    repeat' split at h
    all_goals first
      | (simp only [Res.ok.injEq, Prod.mk.injEq] at h; rw [← h.2]; simp)
      | (have := getS_shorter h; simp; omega)
      | simp at h

theorem data_read_real_shorter {bs r : Bytes} {n : Nat}
    (h : data_read_real bs = .ok (n, r)) : r.length < bs.length := by
  cases bs with
  | nil => simp [data_read_real] at h
  | cons t rest =>
    simp only [data_read_real] at h
    repeat' split at h
    · obtain ⟨⟨f, r'⟩, h1, h2⟩ := Res.bind_eq_ok.1 h
      have := getU_shorter h1
      simp only [Res.ok.injEq, Prod.mk.injEq] at h2
      rw [← h2.2]; simp; omega
    · have := getU_shorter h
      simp; omega
    · simp at h

theorem data_read_raw_shorter {bs r s : Bytes}
    (h : data_read_raw bs = .ok (s, r)) : r.length < bs.length := by
  unfold data_read_raw at h
  obtain ⟨⟨n, r'⟩, h1, h2⟩ := Res.bind_eq_ok.1 h
  have := readCount_shorter h1
  dsimp only at h2
  repeat' split at h2
  · simp at h2
  · simp at h2
  · simp only [Res.ok.injEq, Prod.mk.injEq] at h2
    rw [← h2.2]; simp; omega

/-- The loop over `n` values of data_skip, data.h:635-694: the recursive calls
for the elements of an array (667-669) or the keys and values of a map (675-680)
are made in the same order, as further values to skip.  The depth of the C stack
is not modelled. -/
def skipN : Nat → Bytes → Res Bytes
  | 0, bs => .ok bs
  | _ + 1, [] => .ub "read past the end of the buffer"
  | n + 1, t :: rest =>
    if t.toNat = MN_TRUE ∨ t.toNat = MN_FALSE then skipN n rest
    else if t.toNat = MN_NULL then skipN n rest
    else if data_is_real t.toNat then
      match h : data_read_real (t :: rest) with
      | .ok (_, r) => skipN n r
      | .err m => .err m
      | .abort m => .abort m
      | .ub m => .ub m
    else if data_is_integer t.toNat then
      match h : data_read_integer (t :: rest) with
      | .ok (_, r) => skipN n r
      | .err m => .err m
      | .abort m => .abort m
      | .ub m => .ub m
    else if data_is_array t.toNat then
      match h : data_read_array (t :: rest) with
      | .ok (c, r) => skipN (c.toNat + n) r
      | .err m => .err m
      | .abort m => .abort m
      | .ub m => .ub m
    else if data_is_map t.toNat then
      match h : data_read_map (t :: rest) with
      | .ok (c, r) => skipN (2 * c.toNat + n) r
      | .err m => .err m
      | .abort m => .abort m
      | .ub m => .ub m
    else if data_is_string t.toNat then
      match h : data_read_raw (t :: rest) with
      | .ok (_, r) => skipN n r
      | .err m => .err m
      | .abort m => .abort m
      | .ub m => .ub m
    else .err "unexpected data type"
termination_by _ bs => bs.length
decreasing_by
  all_goals first
    | (simp; done)
    | (have := readCount_shorter h; simpa using this)
    | (have := data_read_integer_shorter h; simpa using this)
    | (have := data_read_real_shorter h; simpa using this)
    | (have := data_read_raw_shorter h; simpa using this)

/-- data_skip, data.h:635-694. -/
def data_skip (bs : Bytes) : Res Bytes := skipN 1 bs

end Data
end Verif
