import Verif.Model.Descr

/-!
What is asked of the descriptors of an environment (C93): a descriptor is closed
once, and after monotone_free none is open. Nothing of the model is used but its
names of the holders and of the operations.
-/
namespace Verif.Spec.C93
open Verif.Descr

/-- The holders and the table of descriptors agree: what somebody holds is open, and
nobody else holds it. -/
def Owned (w : World) : Prop :=
  (∀ s d, w.files s = some d → d ∈ w.fds) ∧
  ∀ s t d, w.files s = some d → w.files t = some d → s = t

/-- The operations that may lose a descriptor when they fail. -/
def Risky : Op → Bool
  | .start _ | .download _ | .refresh _ _ | .refreshCommand _ | .rotate true => true
  | _ => false

/-- How many operations that may lose a descriptor have failed. -/
def failures (h : List (Op × List Bool)) (bs : List Bool) : Nat :=
  ((h.zip bs).filter fun x => Risky x.1.1 && x.2).length

/-- An operation that may come between monotone_open and monotone_free. -/
def Between : Op → Prop
  | .start _ | .free => False
  | _ => True

/-- The life of a handle: it is opened once, used, and freed. No two partitions of
the storages start at the same place. -/
def Life (h : List (Op × List Bool)) : Prop :=
  ∃ a io mid io', h = (.start a, io) :: (mid ++ [(.free, io')]) ∧
    (a.parts.map (·.1)).Nodup ∧ ∀ x ∈ mid, Between x.1

/-- The life of a handle up to now. -/
def Alive (h : List (Op × List Bool)) : Prop :=
  ∃ a io mid, h = (.start a, io) :: mid ∧ (a.parts.map (·.1)).Nodup ∧ ∀ x ∈ mid, Between x.1

/-- The holders that last: those of the environment, the partitions that have a
file, the workers. -/
def Live (w : World) : Slot → Prop
  | .lock | .log | .wal => True
  | .part id => ∃ p, (id, p) ∈ w.refs ∧ p.id = true
  | .merged r => r < w.workers
  | _ => False

/-- C93 in full: whatever fails, after monotone_free no descriptor is open. -/
def AllClosed : Prop :=
  ∀ h w bs, Life h → runs init h = some (w, bs) → w.fds = []

end Verif.Spec.C93
