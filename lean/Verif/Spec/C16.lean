import Verif.Spec.C15

/-! C16: file regions partition the key space by id. -/
namespace Verif.C16

open Verif.Io

/-- The size of a region as writer_is_region_limit counts it. -/
def regionSize (r : List EventMem) : Nat :=
  24 + (r.map fun m => 18 + 2 * m.event.key.length + m.event.value.length).sum

/-- Regions are not empty, their ids ascend without overlap, every region but
the last has reached the limit, and no region goes on after it reached the limit
unless the id stays the same. -/
structure Rules (limit : Int) (rs : List (List EventMem)) : Prop where
  nonempty : ∀ r ∈ rs, r ≠ []
  ascending : rs.Pairwise fun r r' => ∀ x ∈ r, ∀ y ∈ r', x.event.id < y.event.id
  full : ∀ a r b, rs = a ++ r :: b → b ≠ [] → limit ≤ (regionSize r : Int)
  prompt : ∀ r ∈ rs, ∀ a x y b, r = a ++ x :: y :: b → limit ≤ (regionSize (a ++ [x]) : Int) → x.event.id = y.event.id

/-- The index of the open file describes exactly the regions `rs`. -/
def Indexed (p : PartFile) (rs : List (List EventMem)) : Prop :=
  p.index.regions = rs.length ∧ ∀ i r, rs[i]? = some r → ∃ ir, p.index.get p.index_data i = .ok ir ∧
    (∃ x ∈ r, ir.min = x.event.id) ∧ (∃ x ∈ r, ir.max = x.event.id) ∧
    (∀ x ∈ r, ir.min ≤ x.event.id ∧ x.event.id ≤ ir.max) ∧ ir.events = r.length

/-- For every sorted event sequence and region size limit. -/
def Full : Prop :=
  ∀ (cs : Codecs) (s : WriterSource) (a : IndexWriter.StopArg) (ms : List EventMem) (w : Writer),
    ms.Pairwise (fun x y => x.event.id ≤ y.event.id) → (∀ m ∈ ms, WF m.event) → ArgWF s a → 0 ≤ s.region_size →
    C15.Roomy ms → writeFile cs s a ms = .ok w → w.file.length < 4294967296 →
    C15.NoGrowth cs s ms w.index_writer.data →
    ∃ rs p, rs.flatten = ms ∧ part_open cs w.file = .ok p ∧ Rules s.region_size rs ∧ Indexed p rs

end Verif.C16
