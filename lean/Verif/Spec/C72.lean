import Verif.Model.Interleave
import Verif.Spec.Durable

/-! C72: the log tells what the threads did. -/
namespace Verif.C72
open Interleave

/-- What a program or a worker asks for. -/
inductive Call where
  | write (es : List Event)
  /-- a write that fails after these events -/
  | fail (es : List Event)
  | scan (p n : Nat)
  | drop (p : Nat)
deriving Repr, DecidableEq

def Call.code (iv : Nat) : Call → List Instr
  | .write es => Instr.engine_write iv es
  | .fail es => Instr.engine_write_failed iv es
  | .scan p n => Instr.cursor p n
  | .drop p => Instr.engine_drop_reference p

/-- At the start there is nothing, and every thread has its calls to do. -/
def start (iv : Nat) (prog : Nat → List Call) : State where
  control := Rwlock.init
  locks := Locks.init
  mem := fun _ => none
  known := fun _ => false
  log := []
  th := fun t => ⟨(prog t).flatMap (Call.code iv), [], none⟩

/-- A schedule says which thread runs next. -/
def run (iv : Nat) (s : State) : List (Nat × Bool) → Res State
  | [] => .ok s
  | (t, w) :: l => (step iv s t w).bind fun s => run iv s l

/-- What the log tells about an event (`Dur.version`: the last version in a record,
unless a record of a drop comes after it) is what memory has. -/
def Agrees (iv : Nat) (s : State) (k : Key) : Prop := s.mem k = Dur.version iv k s.log

/-- Whoever reads a partition finds what the log tells, and so does everybody when
all threads have come to their end. -/
structure Sound (iv : Nat) (s : State) : Prop where
  read : ∀ t p l, (s.th t).todo = .read p :: l → ∀ k : Key, Dur.partOf iv k.1 = p → Agrees iv s k
  fin : (∀ t, (s.th t).todo = []) → ∀ k, Agrees iv s k

/-- The full property: whatever threads do and however they take turns. -/
def Full : Prop :=
  ∀ (iv n : Nat) (prog : Nat → List Call) (sched : List (Nat × Bool)), (∀ x ∈ sched, x.1 < n) →
    ∃ s, run iv (start iv prog) sched = .ok s ∧ Sound iv s

/-- The events of a batch are in different partitions. -/
def Apart (iv : Nat) : Call → Prop
  | .write es | .fail es => (es.map fun e => Dur.partOf iv e.id).Nodup
  | _ => True

/-- The call reads or writes partition `p`. -/
def Touches (iv p : Nat) : Call → Prop
  | .write es | .fail es => p ∈ es.map fun e => Dur.partOf iv e.id
  | .scan q _ => q = p
  | .drop _ => False

/-- A partition that a thread drops is its own: other threads do not touch it. -/
def Own (iv : Nat) (prog : Nat → List Call) : Prop :=
  ∀ t u p c, Call.drop p ∈ prog t → c ∈ prog u → Touches iv p c → t = u

end Verif.C72
