import Verif.Model.Buf
import Verif.Model.Codec

/-! Model of runtime/lib/encryption_aes.c, compression_lz4.c and
compression_zstd.c and of their use in engine/io/region_writer.h, reader.h and
index_op.c.  The libraries OpenSSL, lz4 and zstd are given by what they document;
everything else is as in the code, with the buffers of Model/Buf.lean. -/
namespace Verif
namespace Pack
open Buf

/-- AES-256 in Galois counter mode (EVP_aes_256_gcm): every byte is combined with a
byte of a stream made of key, vector and position, and a tag of 16 bytes is made of
key, vector and the encrypted bytes. -/
structure Gcm where
  stream : Bytes → Bytes → Nat → UInt8
  tag : Bytes → Bytes → Bytes → Bytes
  tag_length : ∀ k v c, (tag k v c).length = 16

/-- The bytes from position `n` on combined with the stream. -/
def Gcm.mix (g : Gcm) (key iv : Bytes) : Nat → Bytes → Bytes
  | _, [] => []
  | n, x :: xs => (x ^^^ g.stream key iv n) :: g.mix key iv (n + 1) xs

/-- The lz4 frame functions.  LZ4F_compressBegin, LZ4F_compressUpdate and
LZ4F_compressEnd give the next part of the frame, never more than
LZ4F_HEADER_SIZE_MAX (19) or LZ4F_compressBound.  LZ4F_decompress takes the space
left and the data left, and tells what it wrote and how much data it took, or an
error; a whole frame with space for its content is read at once. -/
structure Lz4 where
  C : Type
  D : Type
  fresh : D
  bound : Nat → Nat
  first : Int → C × Bytes
  update : C → Bytes → C × Bytes
  last : C → Bytes
  step : D → Nat → Bytes → Option (D × Bytes × Nat)
  first_le : ∀ l, (first l).2.length ≤ 19
  update_le : ∀ c x, (update c x).2.length ≤ bound x.length
  last_le : ∀ c, (last c).length ≤ bound 0
  first_ne : ∀ l, (first l).2 ≠ []
  step_le : ∀ d room src d' out used, step d room src = some (d', out, used) → out.length ≤ room ∧ used ≤ src.length

/-- The parts of a frame after its header. -/
def Lz4.body (z : Lz4) : z.C → List Bytes → Bytes
  | c, [] => z.last c
  | c, x :: xs => (z.update c x).2 ++ z.body (z.update c x).1 xs

/-- A whole frame. -/
def Lz4.frame (z : Lz4) (level : Int) (xs : List Bytes) : Bytes :=
  (z.first level).2 ++ z.body (z.first level).1 xs

/-- zstd.  `stream` is what ZSTD_compressStream2 leaves in a space of that size when
it is called once for every piece and once to end: the frame if it fits.
`decompress` is ZSTD_decompress with the space for the result. -/
structure Zstd where
  frame : Int → List Bytes → Bytes
  stream : Int → List Bytes → Nat → Bytes
  decompress : Bytes → Nat → Option Bytes
  stream_le : ∀ l xs n, (stream l xs n).length ≤ n
  stream_fits : ∀ l xs n, (frame l xs).length ≤ n → stream l xs n = frame l xs
  decompress_le : ∀ d n o, decompress d n = some o → o.length ≤ n

/-- The libraries. -/
structure Lib where
  gcm : Gcm
  lz4 : Lz4
  zstd : Zstd

/-- What the libraries do with what they made: a frame is read back. -/
structure Lib.Reads (L : Lib) : Prop where
  lz4 : ∀ level xs room, xs.flatten.length ≤ room →
    ∃ d, L.lz4.step L.lz4.fresh room (L.lz4.frame level xs) = some (d, xs.flatten, (L.lz4.frame level xs).length)
  zstd : ∀ level xs n, xs.flatten.length ≤ n → L.zstd.decompress (L.zstd.frame level xs) n = some xs.flatten

/-- Bytes are written at an offset of the block, whatever `position` is. -/
def poke (b : Buf) (off : Nat) (data : Bytes) : Res Buf :=
  if off + data.length ≤ b.block.length then
    .ok { b with block := b.block.take off ++ data ++ b.block.drop (off + data.length) }
  else .ub "write past the end of the block"

/-- Bytes are read at an offset of a block. -/
def peek (block : Bytes) (off n : Nat) : Res Bytes :=
  if off + n ≤ block.length then .ok ((block.drop off).take n) else .ub "read past the end of the block"

/-- `EVP_CIPHER_CTX` in `struct EncryptionAes`, encryption_aes.c:22-26: key and
vector, the encrypted bytes so far, and the tag to expect. -/
structure Cipher where
  key : Bytes
  iv : Bytes
  done : Bytes
  expect : Option Bytes
deriving Repr, DecidableEq

/-- EVP_CipherInit_ex2 with key and vector: whatever the context was used for
before is forgotten.  A vector has 12 bytes in this mode. -/
def cipher_init (key iv : Bytes) : Cipher := ⟨key, iv, [], none⟩

/-- EVP_CipherUpdate when encrypting. -/
def encrypt_update (g : Gcm) (c : Cipher) (x : Bytes) : Cipher × Bytes :=
  let y := g.mix c.key c.iv c.done.length x
  ({ c with done := c.done ++ y }, y)

/-- EVP_CipherUpdate when decrypting. -/
def decrypt_update (g : Gcm) (c : Cipher) (x : Bytes) : Cipher × Bytes :=
  ({ c with done := c.done ++ x }, g.mix c.key c.iv c.done.length x)

/-- The loop of encryption_aes_encrypt, encryption_aes.c:88-96: the sizes of the
pieces are `int`. -/
def encrypt_loop (g : Gcm) : Cipher → Buf → List Bytes → Res (Cipher × Buf)
  | c, b, [] => .ok (c, b)
  | c, b, x :: xs =>
    if wrapS32 x.length < 0 then .ub "negative length"
    else
      let x := x.take (wrapS32 x.length).toNat
      let (c, y) := encrypt_update g c x
      (put b y).bind fun b => (buf_advance b y.length).bind fun b => encrypt_loop g c b xs

/-- encryption_aes_encrypt, encryption_aes.c:58-107.  `r0` and `r1` are the random
numbers; EVP_MAX_BLOCK_LENGTH is 32.  The calls of OpenSSL succeed. -/
def aes_encrypt (g : Gcm) (a : Alloc) (r0 r1 : Nat) (key : Bytes) (b : Buf) (argv : List Bytes) : Res (Cipher × Buf) :=
  if key.length ≠ 32 then .err "aes: encryption key must be 256bit" else
  let size : Nat := 32 + 32 + (argv.map List.length).sum
  (buf_reserve a b (wrapS32 size)).bind fun b =>
  (buf_advance b 32).bind fun b =>
  (poke b 0 (le 8 r0 ++ le 8 r1)).bind fun b =>
  (peek b.block 0 12).bind fun iv =>
  (encrypt_loop g (cipher_init key iv) b argv).bind fun (c, b) =>
  (poke b 16 (g.tag c.key c.iv c.done)).bind fun b =>
  .ok (c, b)

/-- encryption_aes_decrypt, encryption_aes.c:109-146, for `size` bytes at the start of
`block`. -/
def aes_decrypt (g : Gcm) (a : Alloc) (key : Bytes) (b : Buf) (block : Bytes) (size : Int) : Res (Cipher × Buf) :=
  if key.length ≠ 32 then .err "aes: encryption key must be 256bit" else
  (buf_reserve a b size).bind fun b =>
  (int (size - 32)).bind fun left =>
  (peek block 0 12).bind fun iv =>
  let c := cipher_init key iv
  (peek block 16 16).bind fun tag =>
  let c := { c with expect := some tag }
  if left < 0 then .ub "negative length" else
  (peek block 32 left.toNat).bind fun data =>
  let (c, y) := decrypt_update g c data
  (put b y).bind fun b =>
  (buf_advance b y.length).bind fun b =>
  if c.expect = some (g.tag c.key c.iv c.done) then .ok (c, b)
  else .err "aes: decryption failed"

/-- The loop of compression_lz4_compress, compression_lz4.c:96-106. -/
def lz4_updates (z : Lz4) : z.C → Buf → List Bytes → Res (z.C × Buf)
  | c, b, [] => .ok (c, b)
  | c, b, x :: xs =>
    if wrapS32 x.length < 0 then .ub "negative length"
    else
      let x := x.take (wrapS32 x.length).toNat
      let (c, y) := z.update c x
      (put b y).bind fun b => (buf_advance b y.length).bind fun b => lz4_updates z c b xs

/-- compression_lz4_compress, compression_lz4.c:71-113.  The level is only set if it is
positive. -/
def lz4_compress (z : Lz4) (a : Alloc) (b : Buf) (level : Int) (argv : List Bytes) : Res Buf :=
  let level := if level > 0 then level else 0
  let size : Nat := 19 + z.bound 0 + (argv.map fun x => z.bound x.length).sum
  (buf_reserve a b (wrapS32 size)).bind fun b =>
  let (c, y) := z.first level
  (put b y).bind fun b => (buf_advance b y.length).bind fun b =>
  (lz4_updates z c b argv).bind fun (c, b) =>
  let y := z.last c
  (put b y).bind fun b => buf_advance b y.length

/-- The loop of compression_lz4_decompress, compression_lz4.c:126-139, over the data
left.  `fuel` limits the rounds.  The space given is all that is left in the buffer. -/
def lz4_loop (z : Lz4) : Nat → z.D → Buf → Bytes → Res Buf
  | _, _, b, [] => .ok b
  | 0, _, _, _ :: _ => .abort "does not end"
  | fuel + 1, d, b, x :: src =>
    match z.step d (wrapU64 (buf_size_unused b)) (x :: src) with
    | none => .err "lz4: operation failed"
    | some (d, out, used) =>
      (put b out).bind fun b => (buf_advance b out.length).bind fun b =>
      lz4_loop z fuel d b ((x :: src).drop used)

/-- compression_lz4_decompress, compression_lz4.c:115-141.  `debug` tells if there are
asserts. -/
def lz4_decompress (z : Lz4) (fuel : Nat) (debug : Bool) (a : Alloc) (b : Buf) (data : Bytes) (size_origin : Int) : Res Buf :=
  (buf_reserve a b size_origin).bind fun b =>
  (lz4_loop z fuel z.fresh b data).bind fun b =>
  if debug ∧ buf_size b ≠ size_origin then .abort "buf_size(buf) == data_size_uncompressed" else .ok b

/-- compression_zstd_compress, compression_zstd.c:51-94.  `kept` is the level set in the
context: ZSTD_CCtx_reset keeps it (ZSTD_reset_session_only), so that it stays if none
is given.  The asserts fail if the frame did not fit. -/
def zstd_compress (z : Zstd) (debug : Bool) (a : Alloc) (kept : Int) (b : Buf) (level : Int) (argv : List Bytes) : Res (Int × Buf) :=
  let kept := if level > 0 then level else kept
  let size : Nat := (argv.map List.length).sum
  (buf_reserve a b (wrapS32 size)).bind fun b =>
  let room := wrapU64 (buf_size_unused b)
  let out := z.stream kept argv room
  if debug ∧ room < (z.frame kept argv).length then .abort "rc == 0" else
  (put b out).bind fun b => (buf_advance b out.length).bind fun b =>
  .ok (kept, b)

/-- compression_zstd_decompress, compression_zstd.c:96-111: the result goes to the
start of the buffer, and `position` moves by the size expected. -/
def zstd_decompress (z : Zstd) (debug : Bool) (a : Alloc) (b : Buf) (data : Bytes) (size_origin : Int) : Res Buf :=
  (buf_reserve a b size_origin).bind fun b =>
  match z.decompress data (wrapU64 size_origin) with
  | none => .err "zstd: decompression failed"
  | some out =>
    (poke b 0 out).bind fun b =>
    if debug ∧ (out.length : Int) ≠ size_origin then .abort "rc == data_size_uncompressed" else
    if size_origin < 0 then .ub "position before start" else
    buf_advance b size_origin.toNat

/-- The buffers for packing, `compressed` and `encrypted` in `struct RegionWriter`
(engine/io/region_writer.h:18-29) and `struct IndexWriter` (index_writer.h:18-30), and
the level kept in the zstd context of the writer. -/
structure Packer where
  compressed : Buf
  encrypted : Buf
  kept : Int
deriving Repr, DecidableEq

/-- compression_compress, runtime/lib/compression.h:59-65. -/
def compression_compress (L : Lib) (debug : Bool) (a : Alloc) (codec : Codec) (p : Packer) (level : Int) (argv : List Bytes) : Res Packer :=
  match codec with
  | .zstd => (zstd_compress L.zstd debug a p.kept p.compressed level argv).bind fun (kept, b) =>
      .ok { p with kept := kept, compressed := b }
  | .lz4 => (lz4_compress L.lz4 a p.compressed level argv).bind fun b => .ok { p with compressed := b }

/-- compression_decompress, runtime/lib/compression.h:67-76. -/
def compression_decompress (L : Lib) (fuel : Nat) (debug : Bool) (a : Alloc) (codec : Codec) (b : Buf) (data : Bytes) (size_origin : Int) : Res Buf :=
  match codec with
  | .zstd => zstd_decompress L.zstd debug a b data size_origin
  | .lz4 => lz4_decompress L.lz4 fuel debug a b data size_origin

/-- region_writer_reset (engine/io/region_writer.h:52-63), then the second half of
region_writer_stop (113-144) with the two pieces `meta` and `data`, or
index_writer_stop (engine/io/index_writer.h:104-134) with the one piece `data`; and
what is written to the file then (region_writer.h:181-194). -/
def pack (L : Lib) (debug : Bool) (a : Alloc) (comp : Option Codec) (level : Int) (key : Option Bytes) (r0 r1 : Nat)
    (p : Packer) (argv : List Bytes) : Res (Packer × Bytes) :=
  let p := { p with compressed := buf_reset p.compressed, encrypted := buf_reset p.encrypted }
  (match comp with
    | none => Res.ok (p, argv)
    | some codec =>
      (compression_compress L debug a codec p level argv).bind fun p =>
      (buf_str p.compressed).bind fun x => .ok (p, [x])).bind fun (p, argv) =>
  match key with
  | none => .ok (p, argv.flatten)
  | some key =>
    (aes_encrypt L.gcm a r0 r1 key p.encrypted argv).bind fun (_, b) =>
    (buf_str b).bind fun y => .ok ({ p with encrypted := b }, y)

/-- The buffers of `struct Reader`, engine/io/reader.h:17-25. -/
structure Reader where
  buf : Buf
  buf_decrypted : Buf
  buf_decompressed : Buf
deriving Repr, DecidableEq

/-- reader_init, engine/io/reader.h:27-36. -/
def reader_init : Reader := ⟨buf_init, buf_init, buf_init⟩

/-- The first part of reader_execute, engine/io/reader.h:86-131, with `stored` the
`size` bytes read from the file or the cloud: the reader, and the buffer with the
result. -/
def reader_unpack (L : Lib) (fuel : Nat) (debug : Bool) (a : Alloc) (comp : Option Codec) (key : Option Bytes)
    (r : Reader) (stored : Bytes) (size_origin : Int) : Res (Reader × Buf) :=
  (buf_fill a (buf_reset r.buf) (wrapS32 stored.length) stored).bind fun b =>
  let r : Reader := ⟨b, buf_reset r.buf_decrypted, buf_reset r.buf_decompressed⟩
  (match key with
    | none => Res.ok (r, r.buf)
    | some key => (aes_decrypt L.gcm a key r.buf_decrypted r.buf.block (buf_size r.buf)).bind fun (_, b) =>
        .ok ({ r with buf_decrypted := b }, b)).bind fun (r, origin) =>
  match comp with
  | none => .ok (r, origin)
  | some codec =>
    (buf_str origin).bind fun data =>
    (compression_decompress L fuel debug a codec r.buf_decompressed data size_origin).bind fun b =>
    .ok ({ r with buf_decompressed := b }, b)

/-- reader_execute, engine/io/reader.h:83-139: the sizes in the header of the region
are compared with those in the index.  The region returned is read through a pointer
to the start of the buffer: all of its block can be read. -/
def reader_execute (L : Lib) (fuel : Nat) (debug : Bool) (a : Alloc) (comp : Option Codec) (key : Option Bytes)
    (r : Reader) (stored : Bytes) (size_origin events : Nat) : Res (Reader × Bytes) :=
  (reader_unpack L fuel debug a comp key r stored (wrapS32 size_origin)).bind fun (r, origin) =>
  (getU 4 origin.block).bind fun (size, rest) =>
  (getU 4 rest).bind fun (n, _) =>
  if size ≠ size_origin ∨ n ≠ events then .err "read: region meta data mismatch"
  else .ok (r, origin.block)

/-- index_read after the checksum, engine/io/index_op.c:163-182, with index_decrypt
(79-110) and index_decompress (112-136): the same with buffers of its own. -/
def index_unpack (L : Lib) (fuel : Nat) (debug : Bool) (a : Alloc) (comp : Option Codec) (key : Option Bytes)
    (index_data : Buf) (size_origin : Int) : Res Buf :=
  (match key with
    | none => Res.ok index_data
    | some key => (aes_decrypt L.gcm a key buf_init index_data.block (buf_size index_data)).bind fun (_, b) => .ok b).bind fun origin =>
  (match comp with
    | none => Res.ok origin
    | some codec =>
      (buf_str origin).bind fun data =>
      compression_decompress L fuel debug a codec buf_init data size_origin).bind fun origin =>
  if key.isSome ∨ comp.isSome then
    (buf_str origin).bind fun data => buf_write a (buf_reset index_data) data
  else .ok index_data

end Pack
end Verif
