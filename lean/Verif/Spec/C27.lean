import Verif.Model.Files

/-! C27: a crash during refresh loses nothing. -/
namespace Verif.C27
open Files

/-- What happens to a partition. -/
inductive Event where
  /-- an operation -/
  | done (o : Op)
  /-- an operation during which the process dies after `n` steps, and so do the
  restarts that follow, until one gets through -/
  | crash (o : Op) (n : Nat) (recs : List Nat)
  /-- a restart between operations, and restarts that died before it -/
  | restart (recs : List Nat)
  /-- an operation that ends with an error after `n` steps, the process going on -/
  | error (o : Op) (n : Nat)
deriving DecidableEq

/-- The state after an event; none if the database does not open. -/
def step (order : List Nat) (w : World) : Event → Option World
  | .done o => some (exec w (plan w o))
  | .crash o n recs => restart order (exec w ((plan w o).take n)).disk recs
  | .restart recs => restart order w.disk recs
  | .error o n => some (exec w ((plan w o).take n))

def run (order : List Nat) (w : World) : List Event → Option World
  | [] => some w
  | e :: l => (step order w e).bind fun w => run order w l

/-- Nothing stored. -/
def start : World := { disk := fun _ => {}, mem := none }

/-- What is read of the partition: the file it has open, or the object in the
cloud. -/
def content (w : World) : Option Blob :=
  match w.mem with
  | none => none
  | some m => if m.id then (if m.closed then none else (w.disk m.storage).get m.fd) else if m.cloud then (w.disk m.storage).remote else none

/-- A complete file of a version. -/
def full (v : Nat) : Blob := { version := v, written := true, tail := false }

/-- The version stored: none, or a complete one. -/
def Stored (w : World) (v : Option Nat) : Prop := content w = v.map full

/-- The version an operation is to leave, given the version and the copies
there were. -/
def expected (m : Option Mem) (v : Option Nat) : Op → Option Nat
  | .create _ => v
  | .refresh target n _ =>
    match m with
    | none => v
    | some m => if m.cloud then v else if target = some m.storage then v else some n
  | .upload => v
  | .download => v
  | .drop cloud local_ =>
    match m with
    | none => v
    | some m => if (m.id && ! local_) || (m.cloud && ! cloud) then v else none

/-- The operations of an event name storages that exist. -/
def Exists (order : List Nat) : Op → Prop
  | .create s => s ∈ order
  | .refresh (some s) _ _ => s ∈ order
  | _ => True

def Known (order : List Nat) : Event → Prop
  | .done o => Exists order o
  | .crash o _ _ => Exists order o
  | .restart _ => True
  | .error o _ => Exists order o

/-- What is to hold of an event that leads from `w` to `w'`: a complete version is
stored, the expected one if the operation was done, the old or the expected one if
it was not. -/
def Sound (w : World) (v : Option Nat) (w' : World) : Event → Prop
  | .done o => Stored w' (expected w.mem v o)
  | .crash o _ _ => Stored w' v ∨ Stored w' (expected w.mem v o)
  | .restart _ => Stored w' v
  | .error o _ => Stored w' v ∨ Stored w' (expected w.mem v o)

/-- C27 in full: whatever has happened - crashes, restarts that died, operations
that failed - the database opens after the next event, with the old or the new
version. -/
def Full : Prop := ∀ order : List Nat, order.Nodup → ∀ h, (∀ e ∈ h, Known order e) → ∀ e, Known order e →
  ∃ w v w', run order start h = some w ∧ Stored w v ∧ step order w e = some w' ∧ Sound w v w' e

/-- No operation failed without a crash. -/
def NoError : Event → Prop
  | .error _ _ => False
  | _ => True

end Verif.C27
