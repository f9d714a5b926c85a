import Verif.Model.MergeIterator
import Verif.Model.Memtable
import Verif.Model.Mapping
import Verif.Model.Writer

/-!
Model of engine/io/part_cursor.h, engine/engine/engine_cursor.h and the cursor
functions of main/api/monotone.c: reading the events of all partitions.

Locks are left out (C31, C32): the partitions do not change while the cursor
reads.  Iterators are not attached to their tables (C30 is about writes while a
cursor is open).
-/
namespace Verif.Cursor
open Io

/-- The parts of `struct Part` (engine/io/part.h:18-35) that a reader uses: the
two tables in the order that part_memtable (part.h:84-92) returns them, and the
open file, absent when `state` is ID_NONE. -/
structure CPart where
  act : Memtable
  prev : Memtable
  file : Option PartFile

/-- The three iterators of `struct PartCursor`, engine/io/part_cursor.h:17-24,
behind the interface of engine/io/iterator.h. -/
inductive Src where
  | mem (m : Memtable) (it : MIter)
  | file (it : PartIterator)

/-- The functions that memtable_iterator_init (engine/io/memtable_iterator.h:
118-130) and part_iterator_init (engine/io/part_iterator.h:109-123) install. -/
def fns (cs : Codecs) (mc : MemCmp) : IterFns Src where
  at'
    | .mem _ it => it.current
    | .file it => it.at_
  next
    | .mem m it => (Memtable.iterNext m it).bind fun it => .ok (.mem m it)
    | .file it => (PartIterator.next cs mc it).bind fun it => .ok (.file it)

/-- One table of part_cursor_open, part_cursor.h:34-43: only a table that holds
events is added. -/
def addMem (mc : MemCmp) (m : Memtable) (key : Option Event) (mi : Merge Src) : Res (Merge Src) :=
  if m.count > 0 then
    (Memtable.iterOpen mc m key).bind fun (it, _) => .ok (mi.add (.mem m it))
  else .ok mi

/-- The file of part_cursor_open, part_cursor.h:46-50. -/
def addFile (cs : Codecs) (mc : MemCmp) (f : Option PartFile) (key : Option Event) (mi : Merge Src) :
    Res (Merge Src) :=
  match f with
  | some p => (PartIterator.open_ cs mc p key).bind fun (it, _) => .ok (mi.add (.file it))
  | none => .ok mi

/-- part_cursor_open, part_cursor.h:26-54, on a cursor that is new or was reset. -/
def partOpen (cs : Codecs) (mc : MemCmp) (p : CPart) (key : Option Event) : Res (Merge Src) :=
  (addMem mc p.act key Merge.init).bind fun mi =>
  (addMem mc p.prev key mi).bind fun mi =>
  (addFile cs mc p.file key mi).bind fun mi =>
  Merge.openIt mc (fns cs mc) mi

/-- `struct EngineCursor`, engine/engine/engine_cursor.h:17-22: the slice of the
partition it reads (`ref`), and its cursor. -/
structure ECursor where
  ref : Option (Slice CPart)
  cursor : Merge Src

/-- engine_cursor_open_part, engine_cursor.h:24-37; the lookup of engine_lock with
`gte` is mapping_gte (engine/engine/engine.c:120-126). -/
def openPart (cs : Codecs) (mc : MemCmp) (db : Mapping CPart) (min : Nat) (key : Option Event) : Res ECursor :=
  (db.gte min).bind fun
  | none => .ok ⟨none, Merge.init⟩
  | some x => (partOpen cs mc x.v.val key).bind fun mi => .ok ⟨some x.v, mi⟩

/-- engine_cursor_next, engine_cursor.h:89-110. -/
def next (cs : Codecs) (mc : MemCmp) (db : Mapping CPart) (c : ECursor) : Res ECursor :=
  match c.ref with
  | none => .ok c
  | some s =>
    (Merge.next mc (fns cs mc) c.cursor).bind fun mi =>
    if mi.has then .ok { c with cursor := mi }
    else openPart cs mc db (wrapU64 (s.max + 1 : Nat)) none

/-- engine_cursor_open, engine_cursor.h:42-57. -/
def open_ (cs : Codecs) (mc : MemCmp) (db : Mapping CPart) (key : Option Event) : Res ECursor :=
  let min := match key with
    | some k => k.id
    | none => 0
  (openPart cs mc db min key).bind fun c =>
  if c.ref.isSome ∧ c.cursor.has = false then next cs mc db c else .ok c

/-- engine_cursor_at, engine_cursor.h:77-81. -/
def at_ (cs : Codecs) (mc : MemCmp) (c : ECursor) : Res (Option Event) := c.cursor.at' (fns cs mc)

/-- engine_cursor_has, engine_cursor.h:83-87. -/
def has (c : ECursor) : Bool := c.ref.isSome

/-- engine_cursor_skip_deletes, engine_cursor.h:112-123; `none` when the loop has
not ended after `fuel` turns. -/
def skip (cs : Codecs) (mc : MemCmp) (db : Mapping CPart) : Nat → ECursor → Res (Option ECursor)
  | 0, _ => .ok none
  | n + 1, c =>
    if has c then
      (at_ cs mc c).bind fun
      | some e => if e.isDelete then (next cs mc db c).bind (skip cs mc db n) else .ok (some c)
      | none => (next cs mc db c).bind (skip cs mc db n)
    else .ok (some c)

/-- monotone_cursor, main/api/monotone.c:167-210. -/
def cursor (cs : Codecs) (mc : MemCmp) (db : Mapping CPart) (fuel : Nat) (key : Option Event) :
    Res (Option ECursor) :=
  (open_ cs mc db key).bind (skip cs mc db fuel)

/-- monotone_next, main/api/monotone.c:246-261. -/
def step (cs : Codecs) (mc : MemCmp) (db : Mapping CPart) (fuel : Nat) (c : ECursor) : Res (Option ECursor) :=
  (next cs mc db c).bind (skip cs mc db fuel)

/-- The loop of an application: monotone_read (main/api/monotone.c:212-244) until
it reports the end, monotone_next after each event.  `none` when it has not
ended after `n` events. -/
def readAll (cs : Codecs) (mc : MemCmp) (db : Mapping CPart) (fuel : Nat) :
    Nat → ECursor → Res (Option (List Event))
  | 0, _ => .ok none
  | n + 1, c =>
    (at_ cs mc c).bind fun
    | none => .ok (some [])
    | some e =>
      if e.isDelete then .ok (some []) else
      (step cs mc db fuel c).bind fun
      | none => .ok none
      | some c => (readAll cs mc db fuel n c).bind fun
        | none => .ok none
        | some es => .ok (some (e :: es))

/-- Opens a cursor and reads all events; `fuel` bounds every loop, `none` means
that a loop has not ended by then. -/
def scan (cs : Codecs) (mc : MemCmp) (db : Mapping CPart) (fuel : Nat) (key : Option Event) :
    Res (Option (List Event)) :=
  (cursor cs mc db fuel key).bind fun
  | none => .ok none
  | some c => readAll cs mc db fuel fuel c

end Verif.Cursor
