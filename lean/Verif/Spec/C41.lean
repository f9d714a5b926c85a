import Verif.Spec.C27

/-! C41: a partition always keeps a readable copy. -/
namespace Verif.C41
open Files C27

/-- What is read of the partition - the file it has open, or the object in the
cloud - is a version written in full. -/
def Readable (w : World) (v : Nat) : Prop := ∃ b, content w = some b ∧ b.written = true ∧ b.version = v

/-- The operation of an event. -/
def opOf : Event → Option Op
  | .done o => some o
  | .crash o _ _ => some o
  | .restart _ => none
  | .error o _ => some o

/-- The event is not DROP PARTITION. -/
def Keeps (e : Event) : Prop := opOf e ≠ some (.drop true true)

/-- C41 in full: a partition that has a readable copy has one after anything but
DROP PARTITION. -/
def Full : Prop := ∀ order : List Nat, order.Nodup → ∀ h, (∀ e ∈ h, Known order e ∧ Keeps e) → ∀ e, Known order e → Keeps e →
  ∀ w v, run order start h = some w → Readable w v → ∃ w' v', step order w e = some w' ∧ Readable w' v'

/-- A copy is dropped only if there is another. -/
def Careful (m : Option Mem) : Op → Prop
  | .drop true true => False
  | .drop true false => ∃ x, m = some x ∧ x.id = true
  | .drop false true => ∃ x, m = some x ∧ x.cloud = true
  | _ => True

/-- Errors that come before a refresh has put the new file in place, before the
file is closed to be dropped, or before the object in the cloud is removed; any
error of an upload or download. -/
def Mild (o : Op) (n : Nat) : Prop :=
  match o with
  | .refresh _ _ _ => n ≤ 2
  | .drop true _ => n ≤ 1
  | .drop false true => n = 0
  | _ => True

/-- Errors as above, and those of a refresh at any step. -/
def Late (o : Op) (n : Nat) : Prop :=
  match o with
  | .refresh _ _ _ => True
  | o => Mild o n

/-- Careful, and every error one of `P`; no crash and no restart. -/
def Gentle (P : Op → Nat → Prop) (w : World) : Event → Prop
  | .done o => Careful w.mem o
  | .error o n => Careful w.mem o ∧ P o n
  | .crash _ _ _ => False
  | .restart _ => False

/-- Careful, and no error; crashes and restarts at any step. -/
def Crashing (w : World) : Event → Prop
  | .done o => Careful w.mem o
  | .error _ _ => False
  | .crash o _ _ => Careful w.mem o
  | .restart _ => True

/-- The events of a history are as `P` wants them where they happen. -/
def All (order : List Nat) (P : World → Event → Prop) : World → List Event → Prop
  | _, [] => True
  | w, e :: l => P w e ∧ ∀ w', step order w e = some w' → All order P w' l

end Verif.C41
