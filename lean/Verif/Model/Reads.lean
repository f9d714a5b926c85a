import Verif.Model.Cursor

/-!
Model of which regions of the partition files a cursor reads: the cursor of
engine/io/part_iterator.h, engine/io/part_cursor.h and
engine/engine/engine_cursor.h once more, every call of reader_execute
(engine/io/reader.h:83-137) now with a note of the region it is for.

C91_same relates it to `Verif.Cursor`: without the notes it is the same cursor.
Reading the end of a file when it is opened (part_open) is not part of a scan.
-/
namespace Verif.Reads
open Io
open Cursor (CPart)

/-- A call of reader_execute: the partition (by the start of its range), the
position of the region in the index of the file, and its entry there. -/
structure Read where
  part : Nat
  pos : Nat
  region : IndexRegion

/-- `struct PartIterator`, engine/io/part_iterator.h:18-26, of partition `part`,
with the regions it has read, the first one first. -/
structure File where
  part : Nat
  it : PartIterator
  log : List Read

/-- part_iterator_open, engine/io/part_iterator.h:41-57 (with
part_iterator_open_region, 28-39): `PartIterator.open_`. -/
def File.open_ (cs : Codecs) (mc : MemCmp) (part : Nat) (p : PartFile) (key : Option Event) : Res File :=
  (IndexIterator.open_ p.index p.index_data (key.map (·.id))).bind fun ii =>
  match ii.current with
  | none => .ok ⟨part, ⟨p, ii, none⟩, []⟩
  | some r =>
    (reader_execute cs p r).bind fun region =>
    (RegionIterator.open_ mc region key).bind fun (ri, _) => .ok ⟨part, ⟨p, ii, some ri⟩, [⟨part, ii.pos, r⟩]⟩

/-- The loop of part_iterator_next, engine/io/part_iterator.h:80-92:
`PartIterator.skip`. -/
def File.skip (cs : Codecs) (mc : MemCmp) (n : Nat) (f : File) : Res File :=
  match f.it.at_ with
  | some _ => .ok f
  | none =>
    f.it.index_it.next.bind fun ii =>
    match ii.current with
    | none => .ok { f with it := { f.it with index_it := ii } }
    | some r => match n with
      | 0 => .abort "more regions than the index counts"
      | n + 1 =>
        (reader_execute cs f.it.part r).bind fun region =>
        (RegionIterator.open_ mc region none).bind fun (ri, _) =>
        File.skip cs mc n { f with it := { f.it with index_it := ii, region_it := some ri }, log := f.log ++ [⟨f.part, ii.pos, r⟩] }

/-- part_iterator_next, engine/io/part_iterator.h:71-93: `PartIterator.next`. -/
def File.next (cs : Codecs) (mc : MemCmp) (f : File) : Res File :=
  match f.it.index_it.current, f.it.region_it with
  | none, _ => .ok f
  | some _, none => .ub "region iterator without a region"
  | some _, some ri => ri.next.bind fun ri =>
    File.skip cs mc f.it.part.index.regions { f with it := { f.it with region_it := some ri } }

/-- The iterators of `struct PartCursor`, engine/io/part_cursor.h:17-24. -/
inductive Src where
  | mem (m : Memtable) (it : MIter)
  | file (f : File)

/-- The regions read through an iterator; the memory tables read none. -/
def Src.log : Src → List Read
  | .mem _ _ => []
  | .file f => f.log

/-- The functions that memtable_iterator_init (engine/io/memtable_iterator.h:
118-130) and part_iterator_init (engine/io/part_iterator.h:109-123) install. -/
def fns (cs : Codecs) (mc : MemCmp) : IterFns Src where
  at'
    | .mem _ it => it.current
    | .file f => f.it.at_
  next
    | .mem m it => (Memtable.iterNext m it).bind fun it => .ok (.mem m it)
    | .file f => (f.next cs mc).bind fun f => .ok (.file f)

/-- One table of part_cursor_open, engine/io/part_cursor.h:34-43. -/
def addMem (mc : MemCmp) (m : Memtable) (key : Option Event) (mi : Merge Src) : Res (Merge Src) :=
  if m.count > 0 then
    (Memtable.iterOpen mc m key).bind fun (it, _) => .ok (mi.add (.mem m it))
  else .ok mi

/-- The file of part_cursor_open, engine/io/part_cursor.h:46-50. -/
def addFile (cs : Codecs) (mc : MemCmp) (part : Nat) (f : Option PartFile) (key : Option Event) (mi : Merge Src) :
    Res (Merge Src) :=
  match f with
  | some p => (File.open_ cs mc part p key).bind fun f => .ok (mi.add (.file f))
  | none => .ok mi

/-- part_cursor_open, engine/io/part_cursor.h:26-54. -/
def partOpen (cs : Codecs) (mc : MemCmp) (s : Slice CPart) (key : Option Event) : Res (Merge Src) :=
  (addMem mc s.val.act key Merge.init).bind fun mi =>
  (addMem mc s.val.prev key mi).bind fun mi =>
  (addFile cs mc s.min s.val.file key mi).bind fun mi =>
  Merge.openIt mc (fns cs mc) mi

/-- `struct EngineCursor`, engine/engine/engine_cursor.h:17-22, with the regions
read in the partitions it has left. -/
structure ECursor where
  ref : Option (Slice CPart)
  cursor : Merge Src
  past : List Read

/-- The regions read through the iterators of a cursor of a partition. -/
def logOf (m : Merge Src) : List Read := m.list.flatMap fun r => r.it.log

/-- All regions that a cursor has read, in order. -/
def reads (c : ECursor) : List Read := c.past ++ logOf c.cursor

/-- engine_cursor_open_part, engine/engine/engine_cursor.h:24-37, by a cursor that
has read the regions `past`. -/
def openPart (cs : Codecs) (mc : MemCmp) (db : Mapping CPart) (min : Nat) (key : Option Event) (past : List Read) :
    Res ECursor :=
  (db.gte min).bind fun
  | none => .ok ⟨none, Merge.init, past⟩
  | some x => (partOpen cs mc x.v key).bind fun mi => .ok ⟨some x.v, mi, past⟩

/-- engine_cursor_next, engine/engine/engine_cursor.h:89-110. -/
def next (cs : Codecs) (mc : MemCmp) (db : Mapping CPart) (c : ECursor) : Res ECursor :=
  match c.ref with
  | none => .ok c
  | some s =>
    (Merge.next mc (fns cs mc) c.cursor).bind fun mi =>
    if mi.has then .ok { c with cursor := mi }
    else openPart cs mc db (wrapU64 (s.max + 1 : Nat)) none (c.past ++ logOf mi)

/-- engine_cursor_open, engine/engine/engine_cursor.h:42-57. -/
def open_ (cs : Codecs) (mc : MemCmp) (db : Mapping CPart) (key : Option Event) : Res ECursor :=
  let min := match key with
    | some k => k.id
    | none => 0
  (openPart cs mc db min key []).bind fun c =>
  if c.ref.isSome ∧ c.cursor.has = false then next cs mc db c else .ok c

end Verif.Reads
