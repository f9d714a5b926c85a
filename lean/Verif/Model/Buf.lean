import Verif.Model.Bytes

/-! Model of the growing buffers in runtime/runtime/buf.h and of the vectors of
pieces in iov.h. -/
namespace Verif
namespace Buf

/-- `struct Buf`, buf.h:18-23.  `block` is the memory at `start` ([] for NULL),
`position` and `fin` are offsets from there (`fin` is `end`). -/
structure Buf where
  block : Bytes
  position : Nat
  fin : Nat
deriving Repr, DecidableEq

/-- buf_init, buf.h:25-31. -/
def buf_init : Buf := ⟨[], 0, 0⟩

/-- Overflow of `int` is undefined. -/
def int (x : Int) : Res Int :=
  if -2147483648 ≤ x ∧ x < 2147483648 then .ok x else .ub "signed overflow"

/-- buf_capacity, buf.h:40-44: converted to `int`. -/
def buf_capacity (b : Buf) : Int := wrapS32 b.fin

/-- buf_size_unused, buf.h:46-50. -/
def buf_size_unused (b : Buf) : Int := wrapS32 ((b.fin : Int) - b.position)

/-- buf_size, buf.h:52-56. -/
def buf_size (b : Buf) : Int := wrapS32 b.position

/-- buf_reset, buf.h:58-62. -/
def buf_reset (b : Buf) : Buf := { b with position := 0 }

/-- What the allocator does: whether there is memory for a block of this size, and
what is in fresh memory at first. -/
structure Alloc where
  can : Nat → Bool
  junk : Nat → UInt8

/-- mn_realloc, allocator.h:24-31: the block keeps what fits; the size is an
`int` converted to `size_t`. -/
def mn_realloc (a : Alloc) (block : Bytes) (size : Int) : Res Bytes :=
  let n := wrapU64 size
  if a.can n then .ok (block.take n ++ (List.range (n - block.length)).map a.junk)
  else .err "system error"

/-- buf_reserve, buf.h:64-84. -/
def buf_reserve (a : Alloc) (b : Buf) (size : Int) : Res Buf :=
  if buf_size_unused b ≥ size then .ok b
  else
    (int (buf_size b + size)).bind fun size_actual =>
    (int (buf_capacity b * 2)).bind fun size_grow =>
    let size_grow := if size_actual > size_grow then size_actual else size_grow
    (mn_realloc a b.block size_grow).bind fun block =>
    .ok { block := block, position := b.position, fin := size_grow.toNat }

/-- Bytes are written from `position` on, by memcpy or by whoever fills the buffer. -/
def put (b : Buf) (data : Bytes) : Res Buf :=
  if b.position + data.length ≤ b.block.length then
    .ok { b with block := b.block.take b.position ++ data ++ b.block.drop (b.position + data.length) }
  else .ub "write past the end of the block"

/-- buf_advance, buf.h:86-91, for sizes that are not negative. -/
def buf_advance (b : Buf) (size : Nat) : Res Buf :=
  if b.position + size ≤ b.fin then .ok { b with position := b.position + size }
  else .abort "buf_advance"

/-- buf_truncate, buf.h:93-98. -/
def buf_truncate (b : Buf) (size : Nat) : Res Buf :=
  if size ≤ b.position then .ok { b with position := b.position - size }
  else .abort "buf_truncate"

/-- buf_append, buf.h:100-105; `size` is the number of bytes as an `int`, which
memcpy takes as a `size_t`. -/
def buf_append (b : Buf) (data : Bytes) (size : Int) : Res Buf :=
  if size < 0 then .ub "memcpy of a negative size"
  else (put b (data.take size.toNat)).bind fun b => buf_advance b size.toNat

/-- buf_write, buf.h:130-135; sizes of other types are converted to `int` by the
callers. -/
def buf_write (a : Alloc) (b : Buf) (data : Bytes) : Res Buf :=
  (buf_reserve a b (wrapS32 data.length)).bind fun b => buf_append b data (wrapS32 data.length)

/-- Space is reserved, filled in part, and what was filled is kept, as in
file_pread_buf (file.h:259-265), the compressions and `encode_*`. -/
def buf_fill (a : Alloc) (b : Buf) (size : Int) (data : Bytes) : Res Buf :=
  (buf_reserve a b size).bind fun b => (put b data).bind fun b => buf_advance b data.length

/-- buf_str, buf.h:124-128: the bytes from `start` on, as many as buf_size. -/
def buf_str (b : Buf) : Res Bytes :=
  let n := buf_size b
  if 0 ≤ n ∧ n ≤ b.block.length then .ok (b.block.take n.toNat) else .ub "outside of the block"

/-- `struct iovec`: a pointer and a size. -/
structure Iovec where
  base : Nat
  len : Nat
deriving Repr, DecidableEq

/-- The 16 bytes of a `struct iovec`. -/
def Iovec.bytes (v : Iovec) : Bytes := le 8 v.base ++ le 8 v.len

/-- `struct Iov`, iov.h:18-23. -/
structure Iov where
  iov : Buf
  iov_count : Int
  size : Int

/-- iov_init, iov.h:25-31. -/
def iov_init : Iov := ⟨buf_init, 0, 0⟩

/-- iov_reset, iov.h:39-45. -/
def iov_reset (v : Iov) : Iov := ⟨buf_reset v.iov, 0, 0⟩

/-- iov_add, iov.h:59-69; `iov_len` is a `size_t`. -/
def iov_add (a : Alloc) (v : Iov) (pointer : Nat) (size : Int) : Res Iov :=
  (buf_reserve a v.iov 16).bind fun b =>
  (put b (Iovec.bytes ⟨pointer, wrapU64 size⟩)).bind fun b =>
  (buf_advance b 16).bind fun b =>
  (int (v.iov_count + 1)).bind fun count =>
  (int (v.size + size)).bind fun total =>
  .ok ⟨b, count, total⟩

/-- The entry that `iov_pointer(self)[i]` reads, iov.h:47-51. -/
def iov_at (v : Iov) (i : Nat) : Res Iovec :=
  if 16 * i + 16 ≤ v.iov.block.length then
    let b := (v.iov.block.drop (16 * i)).take 16
    .ok ⟨leVal (b.take 8), leVal (b.drop 8)⟩
  else .ub "outside of the block"

end Buf
end Verif
