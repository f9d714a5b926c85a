import Verif.Spec.C11

/-! C12: a keyed cursor starts at the first live event at or after the key. -/
namespace Verif.C12
open Spec Cursor

/-- The property: for every way to build partitions with any content and every
key. -/
def Full (sp ss : Nat) : Prop :=
  ∀ cs mc (ops : List (C03.Op CPart)) (db : Mapping CPart) (ct : Slice CPart → Content) (k : Event),
    C03.Legal (fun _ _ => True) [] ops → C03.run Mapping.init ops = .ok db →
    Holds cs mc sp ss (C03.refRun [] ops) ct → Io.WF k →
    Returns cs mc db (some k) (C03.refRun [] ops) ct fun x => evCmp k x ≤ 0

/-- A seek in a table respects the limits of C08: it has one page, or the key is
among its last. -/
def TameSeek (sp ss : Nat) (es : List Event) (k : Event) : Prop :=
  (C07.table es).length ≤ sp ∨ ((C07.table es).filter fun a => evCmp a k > 0).length < sp - ss

/-- The key is not between the last event of an id and the rest of the file: if
the file holds events of the id, one of them is at or after the key, or nothing
is after the key. -/
def NoTail (L : List Event) (k : Event) : Prop :=
  (∃ e ∈ L, e.id = k.id) → (∃ e ∈ L, e.id = k.id ∧ evCmp k e ≤ 0) ∨ ∀ e ∈ L, evCmp e k < 0

/-- The limits for the partition in which the cursor starts. -/
def TameStart (sp ss : Nat) (c : Content) (k : Event) : Prop :=
  (∃ base, Within base k ∧ ∀ e ∈ c.all, Within base e) ∧
  TameSeek sp ss c.act k ∧ TameSeek sp ss c.prev k ∧ NoTail c.stored k

end Verif.C12
