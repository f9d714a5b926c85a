import Verif.Spec.Cursor

/-! C11: a full scan returns exactly the live events in ascending order. -/
namespace Verif.C11
open Spec Cursor

/-- The property: for every way to build partitions with any content. -/
def Full (sp ss : Nat) : Prop :=
  ∀ cs mc (ops : List (C03.Op CPart)) (db : Mapping CPart) (ct : Slice CPart → Content),
    C03.Legal (fun _ _ => True) [] ops → C03.run Mapping.init ops = .ok db →
    Holds cs mc sp ss (C03.refRun [] ops) ct →
    Returns cs mc db none (C03.refRun [] ops) ct fun _ => True

/-- The limits of C03 for a partition: below 2^63 - 1, and less than 2^31 from its
neighbours. -/
def Close (S : List (Slice CPart)) (s : Slice CPart) : Prop := s.max + 1 < 9223372036854775808 ∧ Near S s.min

/-- The positions a scan looks up, 0 and the end of every partition, are less than
2^31 from the next partition. -/
def NoBigGap (S : List (Slice CPart)) : Prop := Near S 0 ∧ ∀ s ∈ S, Near S (s.max + 1)

/-- The writes respect the limits of C07: ids of a partition within 2^31 and
tables of one page or that grow at the end. -/
def TameContent (sp ss : Nat) (c : Content) : Prop :=
  (∃ base, ∀ e ∈ c.all, Within base e) ∧ C07.Tame sp ss c.act ∧ C07.Tame sp ss c.prev

end Verif.C11
