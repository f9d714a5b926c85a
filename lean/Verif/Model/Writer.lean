import Verif.Model.Index

/-! Model of engine/io/writer.c, engine/io/reader.h and
engine/io/part_iterator.h. -/
namespace Verif.Io

/-- The parts of `struct Source` (cloud/cloud/source.h:18-34) the writer uses.
The codecs are given by id, 0 meaning none (writer_start,
engine/io/writer.c:100-113). -/
structure WriterSource where
  region_size : Int
  crc : Bool
  compression : Nat
  encryption : Nat

/-- `struct Writer`, engine/io/writer.h:18-27.  `file` is the content of the
file so far and `iv` counts the random numbers used. -/
structure Writer where
  file : Bytes
  region_writer : RegionWriter := {}
  index_writer : IndexWriter := {}
  comp : Option Comp
  encr : Option Encr
  source : WriterSource
  iv : Nat := 0

namespace Writer

/-- writer_start, engine/io/writer.c:93-122, on the file just created
(file_create, runtime/runtime/file.h; the model starts with an empty file,
leftovers of an earlier file of the same name are in Model/Leftover.lean). -/
def start (cs : Codecs) (source : WriterSource) : Writer :=
  { file := []
    index_writer := ({} : IndexWriter).start source.crc
    comp := if source.compression = 0 then none else cs.comp source.compression
    encr := if source.encryption = 0 then none else cs.encr source.encryption
    source }

/-- writer_is_region_limit, engine/io/writer.c:57-63: the size and the setting
compare as `uint32_t`. -/
def is_region_limit (w : Writer) : Bool :=
  !w.region_writer.started || wrapU32 w.region_writer.byteSize ≥ wrapU32 w.source.region_size

/-- writer_start_region, engine/io/writer.c:65-73. -/
def start_region (w : Writer) : Writer := { w with region_writer := w.region_writer.reset.start }

/-- writer_stop_region, engine/io/writer.c:75-91: the region is appended to the
file at its current size. -/
def stop_region (w : Writer) : Res Writer :=
  if !w.region_writer.started then .ok w else
  (w.region_writer.stop w.comp w.encr w.iv).bind fun rw =>
  (w.index_writer.add w.comp w.encr rw w.file.length).bind fun iw =>
  .ok { w with
    region_writer := rw
    index_writer := iw
    file := w.file ++ rw.out w.comp w.encr
    iv := w.iv + 1 }

/-- writer_add, engine/io/writer.c:165-189. -/
def add (w : Writer) (m : EventMem) : Res Writer :=
  (if w.is_region_limit then
    (if w.region_writer.started then
      w.region_writer.maxId.bind fun id => Res.ok (id == m.event.id)
    else .ok false).bind fun same =>
    if same then .ok w
    else w.stop_region.bind fun w => .ok w.start_region
  else Res.ok w).bind fun w =>
  (w.region_writer.add m).bind fun rw => .ok { w with region_writer := rw }

/-- The loop of merger_write over the events to keep, engine/io/merger.c:62-75. -/
def addAll : Writer → List EventMem → Res Writer
  | w, [] => .ok w
  | w, m :: r => (w.add m).bind fun w => addAll w r

/-- writer_stop, engine/io/writer.c:124-163: the last region, then the index
data and the header. -/
def stop (w : Writer) (a : IndexWriter.StopArg) : Res Writer :=
  if !w.index_writer.active then .ok w else
  w.stop_region.bind fun w =>
  (w.index_writer.stop w.comp w.encr w.iv { a with
    compression := w.source.compression
    encryption := w.source.encryption }).bind fun iw =>
  .ok { w with
    index_writer := iw
    file := w.file ++ (iw.out w.comp w.encr ++ iw.index.bytes)
    iv := w.iv + 1 }

end Writer

/-- Write a whole partition file: writer_start, writer_add for every event,
writer_stop as in merger_write, engine/io/merger.c:51-96. -/
def writeFile (cs : Codecs) (source : WriterSource) (a : IndexWriter.StopArg) (ms : List EventMem) : Res Writer :=
  (Writer.addAll (Writer.start cs source) ms).bind fun w => w.stop a

/-- The parts of an open `struct Part` (engine/io/part.h:18-35) used for
reading: the file, its index and the index data. -/
structure PartFile where
  file : Bytes
  index : Index
  index_data : Bytes

/-- part_open with `read_index`, engine/io/part.c:54-63. -/
def part_open (cs : Codecs) (file : Bytes) : Res PartFile :=
  (index_open false file).bind fun index =>
  (index_read cs file index).bind fun index_data => .ok { file, index, index_data }

/-- reader_open and reader_execute, engine/io/reader.h:64-139, for a partition
with a local file.  The checksum of the region is not checked. -/
def reader_execute (cs : Codecs) (p : PartFile) (r : IndexRegion) : Res Region :=
  (pread p.file r.size r.offset).bind fun data =>
  (match (if p.index.encryption = 0 then none else cs.encr p.index.encryption) with
    | some e => e.decrypt data
    | none => Res.ok data).bind fun data =>
  (match (if p.index.compression = 0 then none else cs.comp p.index.compression) with
    | some c => c.decompress data r.size_origin
    | none => Res.ok data).bind fun data =>
  (getU 4 data).bind fun (size, rest) => (getU 4 rest).bind fun (events, _) =>
  if size ≠ r.size_origin ∨ events ≠ r.events then .err "read: region meta data mismatch"
  else .ok { bytes := data, events }

/-- `struct PartIterator`, engine/io/part_iterator.h:18-26. -/
structure PartIterator where
  part : PartFile
  index_it : IndexIterator
  region_it : Option RegionIterator

namespace PartIterator

/-- part_iterator_at, engine/io/part_iterator.h:65-69: `region_iterator` has no
current event before a region was opened. -/
def at_ (it : PartIterator) : Option Event := it.region_it.bind (·.current)

/-- part_iterator_open, engine/io/part_iterator.h:41-57 (with
part_iterator_open_region, 28-39). -/
def open_ (cs : Codecs) (mc : MemCmp) (p : PartFile) (key : Option Event) : Res (PartIterator × Bool) :=
  (IndexIterator.open_ p.index p.index_data (key.map (·.id))).bind fun ii =>
  match ii.current with
  | none => .ok (⟨p, ii, none⟩, false)
  | some r =>
    (reader_execute cs p r).bind fun region =>
    (RegionIterator.open_ mc region key).bind fun (ri, hit) => .ok (⟨p, ii, some ri⟩, hit)

/-- The loop of part_iterator_next, engine/io/part_iterator.h:80-92; `n` bounds
the regions left. -/
def skip (cs : Codecs) (mc : MemCmp) (n : Nat) (it : PartIterator) : Res PartIterator :=
  match it.at_ with
  | some _ => .ok it
  | none =>
    it.index_it.next.bind fun ii =>
    match ii.current with
    | none => .ok { it with index_it := ii }
    | some r => match n with
      | 0 => .abort "more regions than the index counts"
      | n + 1 =>
        (reader_execute cs it.part r).bind fun region =>
        (RegionIterator.open_ mc region none).bind fun (ri, _) =>
        skip cs mc n { it with index_it := ii, region_it := some ri }

/-- part_iterator_next, engine/io/part_iterator.h:71-93. -/
def next (cs : Codecs) (mc : MemCmp) (it : PartIterator) : Res PartIterator :=
  match it.index_it.current, it.region_it with
  | none, _ => .ok it
  | some _, none => .ub "region iterator without a region"
  | some _, some ri => ri.next.bind fun ri =>
    skip cs mc it.part.index.regions { it with region_it := some ri }

end PartIterator

end Verif.Io
