import Verif.Model.RefreshReads
import Verif.Model.Whole
import Verif.Spec.C91

/-! C94: a refresh reads every region of the old file once, in order, one at a
time. -/
namespace Verif.C94
open Spec Io Reads RefreshReads

/-- The reads are of the first `n` regions of the file of partition `part`, one
after the other, with their entries in the index. -/
def First (part : Nat) (p : PartFile) (n : Nat) (log : List Read) : Prop :=
  log.map (·.pos) = List.range n ∧ ∀ r ∈ log, r.part = part ∧ p.index.get p.index_data r.pos = .ok r.region

/-- The states of the merge during a refresh: opened, and moved any number of
times. -/
inductive States (cs : Codecs) (mc : MemCmp) (part : Nat) (mem : Memtable) (p : PartFile) : Merge Src → Prop where
  | opened {m} : start cs mc part mem p = .ok m → States cs mc part mem p m
  | moved {m m'} : States cs mc part mem p m → Merge.next mc (fns cs mc) m = .ok m' → States cs mc part mem p m'

/-- The file is at an event of the region read last: no region is read before the
one before it is used up. -/
def NoneAhead (m : Merge Src) : Prop :=
  ∀ r ∈ m.list, ∀ f, r.it = .file f → ∀ e, f.it.at_ = some e →
    ∃ x, f.log.getLast? = some x ∧ x.region.min ≤ e.id ∧ e.id ≤ x.region.max

/-- At most one more region. -/
def OneMore (l l' : List Read) : Prop := l' = l ∨ ∃ r, l' = l ++ [r]

/-- The old file of a partition: one that was written for the events `ms` in
order, or none, which the code reads as an empty index. -/
def Old (cs : Codecs) (ms : List EventMem) (p : PartFile) : Prop :=
  ((∃ s a w, writeFile cs s a ms = .ok w ∧ part_open cs w.file = .ok p ∧ ArgWF s a) ∧
    (∀ m ∈ ms, WF m.event) ∧ Ascending (ms.map (·.event))) ∨ p = ⟨[], {}, []⟩

/-- The same within the limits of C15: the file is below 4 GiB and the codecs do
not make it longer than their limits. -/
def OldWithin (cs : Codecs) (ms : List EventMem) (p : PartFile) : Prop :=
  (Cursor.FileOf cs ms p ∧ (∀ m ∈ ms, WF m.event) ∧ Ascending (ms.map (·.event))) ∨ p = ⟨[], {}, []⟩

/-- The property for one file: for every table, a refresh that comes to its end
has read all regions of the file once, in order, the first at its start and at
most one with each step, none ahead. -/
def Reads (cs : Codecs) (mc : MemCmp) (part : Nat) (mem : Memtable) (p : PartFile) : Prop :=
  (∀ fuel es log, execute cs mc fuel part mem p = .ok (es, log) → First part p p.index.regions log) ∧
  (∀ m, start cs mc part mem p = .ok m → OneMore [] (logOf m)) ∧
  ∀ m, States cs mc part mem p m → NoneAhead m ∧
    ∀ m', Merge.next mc (fns cs mc) m = .ok m' → OneMore (logOf m) (logOf m')

/-- The property, for every file that was written. -/
def Full : Prop := ∀ cs mc part mem ms p, Old cs ms p → Reads cs mc part mem p

end Verif.C94
