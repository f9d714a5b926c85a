import Verif.Spec.C23

/-! C60: a write that was reported as failed leaves no trace. -/
namespace Verif.C60
open Io Wal C22 C23

/-- What happens: writes that succeed, writes that fail after some bytes (after
all of them when the sync fails), rotation, restarts. -/
inductive Op where
  | log (k : Kind)
  | fail (k : Kind) (n : Nat)
  | rotate (wm : Nat)
  | reopen
deriving Repr, DecidableEq

/-- Run operations; `base` is the number found in the partition files. -/
def run (crcOn : Bool) (base fuel : Nat) : State → List Op → Res State
  | s, [] => .ok s
  | s, .log k :: ops => (s.write fun l => (k.entry l).bytes crcOn).bind fun s => run crcOn base fuel s ops
  | s, .fail k n :: ops => (s.fail (fun l => (k.entry l).bytes crcOn) n).bind fun s => run crcOn base fuel s ops
  | s, .rotate wm :: ops => run crcOn base fuel (s.rotate wm) ops
  | s, .reopen :: ops => (restart crcOn s.dir.files base fuel).bind fun r => run crcOn base fuel r.2 ops

/-- What is acknowledged by operations starting after number `lsn`. -/
def logged : Nat → List Op → List Entry
  | _, [] => []
  | l, .log k :: ops => k.entry (l + 1) :: logged (l + 1) ops
  | l, .fail _ _ :: ops => logged l ops
  | l, .rotate _ :: ops => logged l ops
  | l, .reopen :: ops => logged l ops

def opGood (crcOn : Bool) : Op → Prop
  | .log k => k.Good crcOn
  | .fail k _ => k.Good crcOn
  | _ => True

/-- Only batches will be logged. -/
def opBatch : Op → Bool
  | .log k => k.isBatch
  | _ => true

/-- The operations, then a restart: the records it finds. -/
def story (crcOn : Bool) (base fuel : Nat) (s : State) (ops : List Op) : Res (List Rec) :=
  (run crcOn base fuel s ops).bind fun s => (restart crcOn s.dir.files base fuel).bind fun r => .ok r.1

/-- Numbers stay in range, and there is enough fuel for all records. -/
def InRange (fs : List LogFile) (s : State) (ops : List Op) (fuel : Nat) : Prop :=
  s.lsn + ops.length + 2 < 18446744073709551615 ∧ (entriesOf fs).length + ops.length < fuel

/-- The log files stay at most 3 GiB long. -/
def StaysSmall (crcOn : Bool) (base fuel : Nat) (s : State) (ops : List Op) : Prop :=
  ∀ (ops1 ops2 : List Op) (s1 : State), ops = ops1 ++ ops2 → run crcOn base fuel s ops1 = .ok s1 → Small s1.dir

/-- The full property: the restart finds what was acknowledged and nothing else. -/
def Full : Prop :=
  ∀ (crcOn : Bool) (base fuel : Nat) (fs : List LogFile) (s : State) (ops : List Op),
    Running crcOn fs s → InRange fs s ops fuel → base ≤ s.lsn → (∀ op ∈ ops, opGood crcOn op) →
    story crcOn base fuel s ops = .ok ((entriesOf fs ++ logged s.lsn ops).map (·.record))

/-- Failed writes fail before their first byte. -/
def opEmpty : Op → Prop
  | .fail _ n => n = 0
  | _ => True

end Verif.C60
