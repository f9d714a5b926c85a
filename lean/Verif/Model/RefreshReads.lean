import Verif.Model.Reads
import Verif.Model.Merger

/-!
Model of which regions of the old partition file a refresh reads: merger_execute
and merger_write (engine/io/merger.c:51-131) with the iterators of
`Verif.Reads`, which note every call of reader_execute.

C94_same relates it to `Verif.Merger`: without the notes it is the same loop.
What is written is left out (`writeFile`, Model/Writer.lean).
-/
namespace Verif.RefreshReads
open Io Reads

/-- merger_execute up to merge_iterator_open, engine/io/merger.c:103-116: the
memory table is added first, also when it is empty, then the file of partition
`part`; there is no key. -/
def start (cs : Codecs) (mc : MemCmp) (part : Nat) (mem : Memtable) (p : PartFile) : Res (Merge Src) :=
  (Memtable.iterOpen mc mem none).bind fun (it, _) =>
  (File.open_ cs mc part p none).bind fun f =>
  Merge.openIt mc (fns cs mc) (Merge.add (Merge.add Merge.init (.mem mem it)) (.file f))

/-- The loop of merger_write, engine/io/merger.c:60-72: the events given to
writer_add, and the merge at the end.  `fuel` bounds the number of turns. -/
def written (cs : Codecs) (mc : MemCmp) : Nat → Merge Src → Res (List Event × Merge Src)
  | 0, m =>
    (m.at' (fns cs mc)).bind fun
    | none => .ok ([], m)
    | some _ => .ub "fuel"
  | n + 1, m =>
    (m.at' (fns cs mc)).bind fun
    | none => .ok ([], m)
    | some e =>
      (Merge.next mc (fns cs mc) m).bind fun m' =>
      (written cs mc n m').bind fun (es, m) => .ok (if e.isDelete then es else e :: es, m)

/-- merger_execute, engine/io/merger.c:98-131: the events for the new file and the
regions read from the old one, in order. -/
def execute (cs : Codecs) (mc : MemCmp) (fuel part : Nat) (mem : Memtable) (p : PartFile) :
    Res (List Event × List Read) :=
  (start cs mc part mem p).bind fun m =>
  (written cs mc fuel m).bind fun (es, m) => .ok (es, logOf m)

end Verif.RefreshReads
