import Verif.Model.Reads
import Verif.Spec.C11

/-! C91: a scan reads each region once, in order, one at a time. -/
namespace Verif.C91
open Spec Io Reads
open Cursor (CPart Content Holds)

/-- The same iterator without the notes. -/
def bareSrc : Src → Cursor.Src
  | .mem m it => .mem m it
  | .file f => .file f.it

/-- The same merge without the notes. -/
def bareMerge (m : Merge Src) : Merge Cursor.Src := ⟨m.list.map fun r => ⟨bareSrc r.it, r.advance⟩, m.current⟩

/-- The same cursor without the notes. -/
def bare (c : ECursor) : Cursor.ECursor := ⟨c.ref, bareMerge c.cursor⟩

/-- The regions are read in the order of the partitions and of the file, so none
is read twice. -/
def InOrder (l : List Read) : Prop :=
  l.Pairwise fun a b => a.part < b.part ∨ (a.part = b.part ∧ a.pos < b.pos)

/-- The region has only events below the key. -/
def Before (key : Option Event) (r : Read) : Prop := ∃ k, key = some k ∧ r.region.max < k.id

/-- A file is at an event of the region read last: no region is read ahead. -/
def NoneAhead (c : ECursor) : Prop :=
  ∀ r ∈ c.cursor.list, ∀ f, r.it = .file f → ∀ e, f.it.at_ = some e →
    ∃ x, f.log.getLast? = some x ∧ x.region.min ≤ e.id ∧ e.id ≤ x.region.max

/-- A cursor opened at a key and moved any number of times. -/
inductive Steps (cs : Codecs) (mc : MemCmp) (db : Mapping CPart) (key : Option Event) : ECursor → Prop where
  | opened {c} : open_ cs mc db key = .ok c → Steps cs mc db key c
  | moved {c c'} : Steps cs mc db key c → next cs mc db c = .ok c' → Steps cs mc db key c'

/-- At most `n` regions are read from `c` to `c'`. -/
def AtMost (n : Nat) (l l' : List Read) : Prop := ∃ new : List Read, l' = l ++ new ∧ new.length ≤ n

/-- The regions read so far are in order, one more at most with each move. -/
structure Frugal (cs : Codecs) (mc : MemCmp) (db : Mapping CPart) (c : ECursor) : Prop where
  order : InOrder (reads c)
  ahead : NoneAhead c
  one : ∀ c', next cs mc db c = .ok c' → AtMost 1 (reads c) (reads c')

/-- Every region of the files of the partitions was read. -/
def All (S : List (Slice CPart)) (c : ECursor) : Prop :=
  ∀ s ∈ S, ∀ f, s.val.file = some f → ∀ i < f.index.regions, ∃ r ∈ reads c, r.part = s.min ∧ r.pos = i

/-- The property: for every way to build partitions with any content, opening a
cursor reads at most one region and each move at most one more, in order; none
before the key is read; a scan without a key that came to the end has read all. -/
def Full (sp ss : Nat) : Prop :=
  ∀ cs mc (ops : List (C03.Op CPart)) (db : Mapping CPart) (ct : Slice CPart → Content) (key : Option Event),
    C03.Legal (fun _ _ => True) [] ops → C03.run Mapping.init ops = .ok db →
    Holds cs mc sp ss (C03.refRun [] ops) ct → (∀ k, key = some k → Io.WF k) →
    (∀ c, open_ cs mc db key = .ok c → AtMost 1 [] (reads c)) ∧
    ∀ c, Steps cs mc db key c → Frugal cs mc db c ∧ (∀ r ∈ reads c, ¬ Before key r) ∧
      (key = none → c.ref = none → All (C03.refRun [] ops) c)

end Verif.C91
