import Verif.Model.Event
import Verif.Model.Bytes
import Verif.Model.Crc

/-! Model of engine/io/region.h, engine/io/region_writer.h and
engine/io/region_iterator.h. -/
namespace Verif.Io

/-- Memory an `Event*` points to: the event and the bytes that follow it up to
the end of the heap page (or region buffer) it lies in. -/
structure EventMem where
  event : Event
  slack : Bytes
deriving Repr, DecidableEq

/-- The bytes of `struct Event`, engine/io/event.h:34-41 (packed) as filled in by
event_init, event.h:67-78. -/
def eventBytes (e : Event) : Bytes :=
  le 8 e.id ++ le 1 e.flags ++ le 1 e.key.length ++ le 4 (e.key.length + e.value.length) ++ e.key ++ e.value

/-- event_size, engine/io/event.h:49-53: `sizeof(Event) + key_size + data_size`.
`data_size` already includes the key, so the key is counted twice. -/
def event_size (e : Event) : Nat := 14 + e.key.length + (e.key.length + e.value.length)

/-- The bytes read when `event_size` bytes are copied from an event: the event
and as many bytes after it as the key is long. -/
def copyEvent (m : EventMem) : Res Bytes :=
  if m.slack.length < m.event.key.length then .ub "read past the memory of the event"
  else .ok (eventBytes m.event ++ m.slack.take m.event.key.length)

/-- Sizes of a `Buf` are `int` and its capacity is doubled
(runtime/runtime/buf.h:39-82), which may overflow once a buffer needs more than
2^29 bytes.  The model treats every larger buffer as undefined. -/
def bufLimit : Nat := 536870912

/-- buf_write, runtime/runtime/buf.h:130-135. -/
def bufWrite (b x : Bytes) : Res Bytes :=
  if bufLimit < b.length + x.length then .ub "buffer size overflows int" else .ok (b ++ x)

/-- A compression (runtime/lib/compression.h): `frame` is the complete
compressed form the library would produce, `decompress` what
compression_decompress returns for data and the expected size.  `exact` is set
for compressions that reserve room only for as many bytes as they are given:
compression_zstd_compress reserves the input size and ignores in the Release
build that the frame did not fit (runtime/lib/compression_zstd.c:59-89);
compression_lz4_compress reserves LZ4F_compressBound (compression_lz4.c:81-90).
Frames have a header and are never empty. -/
structure Comp where
  frame : Bytes → Bytes
  decompress : Bytes → Nat → Res Bytes
  exact : Bool
  law : ∀ x, decompress (frame x) x.length = .ok x
  frame_ne : ∀ x, frame x ≠ []

/-- An encryption (runtime/lib/encryption.h) with the storage's key: `encrypt`
takes the random initialisation vector as a number.  The result starts with 32
bytes for the vector and the tag (runtime/lib/encryption_aes.c:71-78). -/
structure Encr where
  encrypt : Nat → Bytes → Res Bytes
  decrypt : Bytes → Res Bytes
  law : ∀ n x y, encrypt n x = .ok y → decrypt y = .ok x
  encrypt_ne : ∀ n x y, encrypt n x = .ok y → y ≠ []

/-- compression_compress into a `Buf` of capacity `cap` that was reset: the
stored bytes and the new capacity.  buf_reserve (buf.h:57-76) makes the capacity
at least the input size, doubling it when it grows.  The room reserved by other
compressions than zstd is not tracked. -/
def compress (c : Comp) (cap : Nat) (x : Bytes) : Bytes × Nat :=
  let cap := if cap ≥ x.length then cap else if x.length > 2 * cap then x.length else 2 * cap
  if c.exact then ((c.frame x).take cap, cap) else (c.frame x, cap)

/-- `struct RegionWriter`, engine/io/region_writer.h:18-29.  `meta` is kept as
its parts: whether the header is there, its two used fields and the offsets. -/
structure RegionWriter where
  started : Bool := false
  size : Nat := 0
  events : Nat := 0
  offsets : List Nat := []
  data : Bytes := []
  compressed : Bytes := []
  cap : Nat := 0
  encrypted : Bytes := []

namespace RegionWriter

/-- The bytes of `meta`: `struct Region` (engine/io/region.h:18-25) and the
offsets. -/
def metaBytes (w : RegionWriter) : Bytes :=
  if w.started then le 4 w.size ++ le 4 w.events ++ List.replicate 16 0 ++ w.offsets.flatMap (le 4) else []

/-- region_writer_reset, engine/io/region_writer.h:54-65; the buffers keep their
memory. -/
def reset (w : RegionWriter) : RegionWriter := { cap := w.cap }

/-- region_writer_start, engine/io/region_writer.h:86-104. -/
def start (w : RegionWriter) : RegionWriter := { w with started := true }

/-- region_writer_size, engine/io/region_writer.h:80-84. -/
def byteSize (w : RegionWriter) : Nat := w.metaBytes.length + w.data.length

/-- region_writer_add, engine/io/region_writer.h:147-161. -/
def add (w : RegionWriter) (m : EventMem) : Res RegionWriter :=
  if bufLimit < w.metaBytes.length + 4 then .ub "buffer size overflows int" else
  (copyEvent m).bind fun bs => (bufWrite w.data bs).bind fun d =>
  .ok { w with
    offsets := w.offsets ++ [w.data.length]
    data := d
    events := w.events + 1 }

/-- The raw region, engine/io/region_writer.h:190-193. -/
def raw (w : RegionWriter) : Bytes := w.metaBytes ++ w.data

/-- region_writer_stop, engine/io/region_writer.h:106-145; `iv` is the random
number used by the encryption. -/
def stop (comp : Option Comp) (encr : Option Encr) (iv : Nat) (w : RegionWriter) : Res RegionWriter :=
  let w := { w with size := w.byteSize }
  let w := match comp with
    | none => w
    | some c => { w with
        compressed := (compress c w.cap w.raw).1
        cap := (compress c w.cap w.raw).2 }
  match encr with
  | none => .ok w
  | some e =>
    (e.encrypt iv (match comp with
      | some _ => w.compressed
      | none => w.raw)).bind fun y => .ok { w with encrypted := y }

/-- What region_writer_add_to_iov writes, engine/io/region_writer.h:181-194. -/
def out (comp : Option Comp) (encr : Option Encr) (w : RegionWriter) : Bytes :=
  match encr with
  | some _ => w.encrypted
  | none => match comp with
    | some _ => w.compressed
    | none => w.raw

/-- region_writer_crc, engine/io/region_writer.h:196-216: crc32 over the bytes
written (in one or two calls, which gives the same, see C54). -/
def crc (comp : Option Comp) (encr : Option Encr) (w : RegionWriter) : Nat :=
  (Crc.crc32_hw 0#32 (w.out comp encr)).toNat

/-- `region_writer_min(self)->id`, engine/io/region_writer.h:163-167. -/
def minId (w : RegionWriter) : Res Nat := (getU 8 w.data).bind fun (n, _) => .ok n

/-- `region_writer_max(self)->id`, engine/io/region_writer.h:169-176. -/
def maxId (w : RegionWriter) : Res Nat :=
  match w.offsets.getLast? with
  | none => .ub "region_writer_max: no events"
  | some o => (getU 8 (w.data.drop o)).bind fun (n, _) => .ok n

end RegionWriter

/-- Read the `struct Event` at a pointer of which the remaining bytes of the
buffer are given: event_key and event_value (engine/io/event.h:55-65); the value
size is `data_size - key_size` (main/api/monotone.c:227). -/
def eventAt (bs : Bytes) : Res Event :=
  (getU 8 bs).bind fun (id, bs) => (getU 1 bs).bind fun (flags, bs) =>
  (getU 1 bs).bind fun (ks, bs) => (getU 4 bs).bind fun (ds, bs) =>
  if bs.length < ds then .ub "event past the end of the buffer"
  else if ds < ks then .ub "event data shorter than its key"
  else .ok { id, flags, key := bs.take ks, value := (bs.take ds).drop ks }

/-- A region buffer: the bytes and `events` of its header. -/
structure Region where
  bytes : Bytes
  events : Nat
deriving Repr, DecidableEq

namespace Region

/-- region_get, engine/io/region.h:27-35. -/
def get (r : Region) (pos : Nat) : Res Event :=
  if r.events ≤ pos then .abort "pos < (int)self->events" else
  (getU 4 ((r.bytes.drop 24).drop (4 * pos))).bind fun (o, _) =>
  eventAt (r.bytes.drop (24 + 4 * r.events + o))

end Region

/-- `struct RegionIterator`, engine/io/region_iterator.h:18-25. -/
structure RegionIterator where
  region : Region
  pos : Nat
  current : Option Event

namespace RegionIterator

/-- region_iterator_set_pos, engine/io/region_iterator.h:27-38. -/
def set_pos (r : Region) (pos : Nat) : Res RegionIterator :=
  if r.events ≤ pos then .ok ⟨r, 0, none⟩
  else (r.get pos).bind fun e => .ok ⟨r, pos, some e⟩

/-- The loop of region_iterator_search, engine/io/region_iterator.h:47-70:
`lo` is `min`, `hi` is `max + 1`. -/
def search (mc : MemCmp) (r : Region) (e : Event) (lo hi : Nat) : Res (Nat × Bool) :=
  if lo < hi then
    let mid := lo + (hi - 1 - lo) / 2
    (r.get mid).bind fun at_ =>
    let rc := compareInt mc at_ e
    if rc < 0 then search mc r e (mid + 1) hi
    else if rc > 0 then search mc r e lo mid
    else .ok (mid, true)
  else .ok (lo, false)
termination_by hi - lo

/-- region_iterator_open, engine/io/region_iterator.h:72-93. -/
def open_ (mc : MemCmp) (r : Region) (key : Option Event) : Res (RegionIterator × Bool) :=
  if r.events = 0 then .ok (⟨r, 0, none⟩, false) else
  (match key with
    | some e => search mc r e 0 r.events
    | none => .ok (0, false)).bind fun (pos, hit) =>
  (set_pos r pos).bind fun it => .ok (it, hit)

/-- region_iterator_next, engine/io/region_iterator.h:107-113. -/
def next (it : RegionIterator) : Res RegionIterator :=
  match it.current with
  | none => .ok it
  | some _ => set_pos it.region (it.pos + 1)

end RegionIterator

end Verif.Io
