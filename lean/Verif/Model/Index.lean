import Verif.Model.Region

/-! Model of engine/io/index.h, engine/io/index_writer.h, engine/io/index_op.c
and engine/io/index_iterator.h. -/
namespace Verif.Io

/-- `struct IndexRegion`, engine/io/index.h:22-32. -/
structure IndexRegion where
  offset : Nat
  crc : Nat
  min : Nat
  max : Nat
  size : Nat
  size_origin : Nat
  events : Nat
deriving Repr, DecidableEq

namespace IndexRegion

/-- The 52 bytes of `struct IndexRegion` (packed). -/
def bytes (r : IndexRegion) : Bytes :=
  le 4 r.offset ++ le 4 r.crc ++ le 8 r.min ++ le 8 r.max ++ le 4 r.size ++ le 4 r.size_origin ++ le 4 r.events
    ++ List.replicate 16 0

/-- The structure at a pointer. -/
def at_ (bs : Bytes) : Res IndexRegion :=
  (getU 4 bs).bind fun (offset, bs) => (getU 4 bs).bind fun (crc, bs) =>
  (getU 8 bs).bind fun (min, bs) => (getU 8 bs).bind fun (max, bs) =>
  (getU 4 bs).bind fun (size, bs) => (getU 4 bs).bind fun (size_origin, bs) =>
  (getU 4 bs).bind fun (events, bs) => (getU 16 bs).bind fun _ =>
  .ok { offset, crc, min, max, size, size_origin, events }

end IndexRegion

/-- `struct Index`, engine/io/index.h:34-56; `Id` is cloud/cloud/id.h:27-31.
`reserved` is always zero when written and not kept here. -/
structure Index where
  crc : Nat := 0
  crc_data : Nat := 0
  magic : Nat := 0
  version : Nat := 0
  id_min : Nat := 0
  id_max : Nat := 0
  size : Nat := 0
  size_origin : Nat := 0
  size_regions : Nat := 0
  size_regions_origin : Nat := 0
  size_total : Nat := 0
  size_total_origin : Nat := 0
  regions : Nat := 0
  events : Nat := 0
  time_create : Nat := 0
  time_refresh : Nat := 0
  refreshes : Nat := 0
  lsn : Nat := 0
  compression : Nat := 0
  encryption : Nat := 0
deriving Repr, DecidableEq

namespace Index

/-- The bytes of `struct Index` (packed) after the first field. -/
def tailBytes (i : Index) : Bytes :=
  le 4 i.crc_data ++ le 4 i.magic ++ le 4 i.version ++ le 8 i.id_min ++ le 8 i.id_max ++ le 4 i.size
    ++ le 4 i.size_origin ++ le 8 i.size_regions ++ le 8 i.size_regions_origin ++ le 8 i.size_total
    ++ le 8 i.size_total_origin ++ le 4 i.regions ++ le 8 i.events ++ le 8 i.time_create ++ le 8 i.time_refresh
    ++ le 4 i.refreshes ++ le 8 i.lsn ++ le 1 i.compression ++ le 1 i.encryption ++ List.replicate 16 0

/-- The 130 bytes of `struct Index`. -/
def bytes (i : Index) : Bytes := le 4 i.crc ++ i.tailBytes

/-- The structure at a pointer. -/
def at_ (bs : Bytes) : Res Index :=
  (getU 4 bs).bind fun (crc, bs) => (getU 4 bs).bind fun (crc_data, bs) =>
  (getU 4 bs).bind fun (magic, bs) => (getU 4 bs).bind fun (version, bs) =>
  (getU 8 bs).bind fun (id_min, bs) => (getU 8 bs).bind fun (id_max, bs) =>
  (getU 4 bs).bind fun (size, bs) => (getU 4 bs).bind fun (size_origin, bs) =>
  (getU 8 bs).bind fun (size_regions, bs) => (getU 8 bs).bind fun (size_regions_origin, bs) =>
  (getU 8 bs).bind fun (size_total, bs) => (getU 8 bs).bind fun (size_total_origin, bs) =>
  (getU 4 bs).bind fun (regions, bs) => (getU 8 bs).bind fun (events, bs) =>
  (getU 8 bs).bind fun (time_create, bs) => (getU 8 bs).bind fun (time_refresh, bs) =>
  (getU 4 bs).bind fun (refreshes, bs) => (getU 8 bs).bind fun (lsn, bs) =>
  (getU 1 bs).bind fun (compression, bs) => (getU 1 bs).bind fun (encryption, bs) =>
  (getU 16 bs).bind fun _ =>
  .ok { crc, crc_data, magic, version, id_min, id_max, size, size_origin, size_regions, size_regions_origin,
        size_total, size_total_origin, regions, events, time_create, time_refresh, refreshes, lsn,
        compression, encryption }

/-- index_get, engine/io/index.h:64-70, on the index data. -/
def get (i : Index) (data : Bytes) (pos : Nat) : Res IndexRegion :=
  if i.regions ≤ pos then .abort "pos < (int)self->regions" else IndexRegion.at_ (data.drop (52 * pos))

end Index

/-- `struct IndexWriter`, engine/io/index_writer.h:18-30. -/
structure IndexWriter where
  active : Bool := false
  data : Bytes := []
  compressed : Bytes := []
  cap : Nat := 0
  encrypted : Bytes := []
  crc : Bool := false
  index : Index := {}

namespace IndexWriter

/-- index_writer_reset, engine/io/index_writer.h:53-66. -/
def reset (w : IndexWriter) : IndexWriter := { cap := w.cap }

/-- index_writer_start, engine/io/index_writer.h:74-90. -/
def start (w : IndexWriter) (crc : Bool) : IndexWriter := { w with active := true, crc }

/-- index_writer_add, engine/io/index_writer.h:172-213; `offset` is the file
size, stored in 32 bits. -/
def add (comp : Option Comp) (encr : Option Encr) (w : IndexWriter) (rw : RegionWriter) (offset : Nat) :
    Res IndexWriter :=
  if rw.events = 0 then .abort "region->events > 0" else
  let size := (rw.out comp encr).length
  (rw.minId).bind fun min => (rw.maxId).bind fun max =>
  let ref : IndexRegion :=
    { offset := offset % 4294967296
      crc := if w.crc then rw.crc comp encr else 0
      min, max, size, size_origin := rw.size, events := rw.events }
  (bufWrite w.data ref.bytes).bind fun data =>
  .ok { w with
    data
    index := { w.index with
      regions := w.index.regions + 1
      events := w.index.events + rw.events
      size := w.index.size + 52
      size_regions := w.index.size_regions + size
      size_regions_origin := w.index.size_regions_origin + rw.size } }

/-- What index_writer_add_to_iov writes before the header,
engine/io/index_writer.h:223-233. -/
def out (comp : Option Comp) (encr : Option Encr) (w : IndexWriter) : Bytes :=
  match encr with
  | some _ => w.encrypted
  | none => match comp with
    | some _ => w.compressed
    | none => w.data

/-- The size index_writer_stop puts in the header,
engine/io/index_writer.h:112-138. -/
def outSize (comp : Option Comp) (encr : Option Encr) (w : IndexWriter) : Nat :=
  match encr, comp with
  | none, none => w.index.size
  | _, _ => (w.out comp encr).length

/-- What the caller of index_writer_stop passes (engine/io/index_writer.h:93-98)
and the ids of the codecs. -/
structure StopArg where
  id_min : Nat
  id_max : Nat
  refreshes : Nat
  time_create : Nat
  time_refresh : Nat
  lsn : Nat
  compression : Nat
  encryption : Nat

/-- The header filled in by index_writer_stop with a zero checksum,
engine/io/index_writer.h:101-104 and 137-166. -/
def header (comp : Option Comp) (encr : Option Encr) (w : IndexWriter) (a : StopArg) : Index :=
  { w.index with
    crc := 0
    crc_data := (Crc.crc32_hw 0#32 (w.out comp encr)).toNat
    magic := 0x20849615
    version := 0
    id_min := a.id_min
    id_max := a.id_max
    size := w.outSize comp encr
    size_origin := w.index.size
    size_total := w.index.size_regions + w.outSize comp encr + 130
    size_total_origin := w.index.size_regions_origin + w.index.size + 130
    time_create := a.time_create
    time_refresh := a.time_refresh
    refreshes := a.refreshes
    lsn := a.lsn
    compression := if comp.isSome then a.compression else 0
    encryption := if encr.isSome then a.encryption else 0 }

/-- Compression and encryption of the index data by index_writer_stop,
engine/io/index_writer.h:103-137. -/
def pack (comp : Option Comp) (encr : Option Encr) (iv : Nat) (w : IndexWriter) : Res IndexWriter :=
  let w := match comp with
    | none => w
    | some c => { w with
        compressed := (compress c w.cap w.data).1
        cap := (compress c w.cap w.data).2 }
  match encr with
  | none => .ok w
  | some e => (e.encrypt iv (match comp with
      | some _ => w.compressed
      | none => w.data)).bind fun y => .ok { w with encrypted := y }

/-- The end of index_writer_stop, engine/io/index_writer.h:137-169.  The
checksum of the header is computed with the field itself zero. -/
def finish (comp : Option Comp) (encr : Option Encr) (w : IndexWriter) (a : StopArg) : IndexWriter :=
  { w with
    index := { w.header comp encr a with crc := (Crc.crc32_hw 0#32 (w.header comp encr a).bytes).toNat } }

/-- index_writer_stop, engine/io/index_writer.h:92-170. -/
def stop (comp : Option Comp) (encr : Option Encr) (iv : Nat) (w : IndexWriter) (a : StopArg) : Res IndexWriter :=
  (w.pack comp encr iv).bind fun w => .ok (w.finish comp encr a)

end IndexWriter

/-- file_pread, runtime/runtime/file.h:250-257 over vfs_pread
(runtime/runtime/vfs.c:122-137): all bytes or an error; nothing left to read, also for
size 0, is an error. -/
def pread (file : Bytes) (size offset : Nat) : Res Bytes :=
  if size = 0 ∨ file.length < offset + size then .err "file: pread error"
  else .ok ((file.drop offset).take size)

/-- index_open, engine/io/index_op.c:21-74, for the file content; `cloud` is
`type == ID_CLOUD`. -/
def index_open (cloud : Bool) (file : Bytes) : Res Index :=
  if file.length < 130 then .err "partition: file has incorrect size" else
  (pread file 130 (file.length - 130)).bind fun bs =>
  (Index.at_ bs).bind fun index =>
  if index.magic ≠ 0x20849615 then .err "partition: file is corrupted"
  else if (Crc.crc32_hw 0#32 (bs.drop 4)).toNat ≠ index.crc then .err "partition: file index crc mismatch"
  else if file.length ≠ (if cloud then index.size + 130 else index.size_total) then
    .err "partition: file size mismatch"
  else if index.version > 0 then .err "partition: file index format is not compatible"
  else .ok index

/-- The codecs known to the process by id (compression_mgr_pop and
encryption_mgr_pop, runtime/lib/compression_mgr.c, encryption_mgr.c). -/
structure Codecs where
  comp : Nat → Option Comp
  encr : Nat → Option Encr

/-- index_read, engine/io/index_op.c:139-191, with `copy` false. -/
def index_read (cs : Codecs) (file : Bytes) (index : Index) : Res Bytes :=
  if index.size = 0 then .ok [] else
  -- `offset` is an unsigned difference: below zero the read fails
  if file.length < 130 + index.size then .err "file: pread error" else
  (pread file index.size (file.length - (130 + index.size))).bind fun data =>
  if (Crc.crc32_hw 0#32 data).toNat ≠ index.crc_data then .err "partition: file index data crc mismatch" else
  (if index.encryption = 0 then Res.ok data else
    match cs.encr index.encryption with
    | none => Res.err "partition: file unknown encryption"
    | some e => e.decrypt data).bind fun data =>
  if index.compression = 0 then .ok data else
    match cs.comp index.compression with
    | none => .err "partition: file unknown compression id"
    | some c => c.decompress data index.size_origin

/-- `struct IndexIterator`, engine/io/index_iterator.h:18-24. -/
structure IndexIterator where
  index : Index
  data : Bytes
  current : Option IndexRegion
  pos : Nat

namespace IndexIterator

/-- The loop of index_iterator_search, engine/io/index_iterator.h:35-53.  The
clamp after the loop has no effect (`end` never grows). -/
def search (i : Index) (data : Bytes) (id : Nat) (lo hi : Nat) : Res Nat :=
  if lo < hi then
    let mid := lo + (hi - lo) / 2
    (i.get data mid).bind fun r => (compareU64 r.max id).bind fun d =>
    if d < 0 then search i data id (mid + 1) hi else search i data id lo mid
  else .ok hi
termination_by hi - lo

/-- index_iterator_open, engine/io/index_iterator.h:55-81; `rc` is an `int`. -/
def open_ (i : Index) (data : Bytes) (key : Option Nat) : Res IndexIterator :=
  if i.regions = 0 then .ok ⟨i, data, none, 0⟩ else
  match key with
  | none => (i.get data 0).bind fun r => .ok ⟨i, data, some r, 0⟩
  | some id =>
    (search i data id 0 (i.regions - 1)).bind fun pos =>
    (i.get data pos).bind fun r => (compareU64 r.max id).bind fun d =>
    let pos := if wrapS32 d < 0 then pos + 1 else pos
    if i.regions ≤ pos then .ok ⟨i, data, none, pos⟩
    else (i.get data pos).bind fun r => .ok ⟨i, data, some r, pos⟩

/-- index_iterator_next, engine/io/index_iterator.h:95-103. -/
def next (it : IndexIterator) : Res IndexIterator :=
  let pos := it.pos + 1
  if it.index.regions ≤ pos then .ok { it with current := none, pos }
  else (it.index.get it.data pos).bind fun r => .ok { it with current := some r, pos }

end IndexIterator

end Verif.Io
