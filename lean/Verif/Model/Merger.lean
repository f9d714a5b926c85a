import Verif.Model.MergeIterator

/-! Model of the loop of merger_write, engine/io/merger.c:51-75. -/
namespace Verif.Merger

variable {ι : Type}

/-- The events that merger_write gives to writer_add, engine/io/merger.c:60-72:
until merge_iterator_at returns NULL, the event is written unless it is a delete.
`fuel` bounds the number of turns. -/
def written (mc : MemCmp) (f : IterFns ι) : Nat → Merge ι → Res (List Event)
  | 0, m =>
    (m.at' f).bind fun
    | none => .ok []
    | some _ => .ub "fuel"
  | n + 1, m =>
    (m.at' f).bind fun
    | none => .ok []
    | some e =>
      (Merge.next mc f m).bind fun m' =>
      (written mc f n m').bind fun es => .ok (if e.isDelete then es else e :: es)

/-- merger_execute, engine/io/merger.c:98-131, for iterators that are open: the
memory table is added first, the partition file second. -/
def execute (mc : MemCmp) (f : IterFns ι) (fuel : Nat) (memtable file : ι) : Res (List Event) :=
  (Merge.openIt mc f (Merge.add (Merge.add Merge.init memtable) file)).bind (written mc f fuel)

end Verif.Merger
