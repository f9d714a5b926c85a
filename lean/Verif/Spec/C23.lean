import Verif.Spec.C22

/-! C23: a torn log tail. -/
namespace Verif.C23
open Io Wal C22

/-- Something to log. -/
inductive Kind where
  | batch (es : List LogEvent)
  | drop (id : Nat)
deriving Repr, DecidableEq

namespace Kind
def entry (lsn : Nat) : Kind → Entry
  | batch es => .write lsn es
  | drop id => .drop lsn id

def Good (crcOn : Bool) : Kind → Prop
  | batch es => Calm crcOn es ∧ Fits es
  | drop id => id < 18446744073709551616

def isBatch : Kind → Bool
  | batch _ => true
  | drop _ => false
end Kind

/-- What happens afterwards. -/
inductive Op where
  | log (k : Kind)
  | rotate (wm : Nat)
  | reopen
deriving Repr, DecidableEq

/-- Run operations; `base` is the number found in the partition files. -/
def run (crcOn : Bool) (base fuel : Nat) : State → List Op → Res State
  | s, [] => .ok s
  | s, .log k :: ops => (s.write fun l => (k.entry l).bytes crcOn).bind fun s => run crcOn base fuel s ops
  | s, .rotate wm :: ops => run crcOn base fuel (s.rotate wm) ops
  | s, .reopen :: ops => (restart crcOn s.dir.files base fuel).bind fun r => run crcOn base fuel r.2 ops

/-- What is acknowledged by operations starting after number `lsn`. -/
def logged : Nat → List Op → List Entry
  | _, [] => []
  | l, .log k :: ops => k.entry (l + 1) :: logged (l + 1) ops
  | l, .rotate _ :: ops => logged l ops
  | l, .reopen :: ops => logged l ops

def opGood (crcOn : Bool) : Op → Prop
  | .log k => k.Good crcOn
  | _ => True

/-- A crash in the middle of logging `k`, a restart, further operations and
another restart: the records found by the two restarts. -/
def story (crcOn : Bool) (base fuel : Nat) (s : State) (k : Kind) (n : Nat) (ops : List Op) : Res (List Rec × List Rec) :=
  (s.tear (fun l => (k.entry l).bytes crcOn) n).bind fun d =>
  (restart crcOn d.files base fuel).bind fun r1 =>
  (run crcOn base fuel r1.2 ops).bind fun s2 =>
  (restart crcOn s2.dir.files base fuel).bind fun r2 => .ok (r1.1, r2.1)

/-- The highest number of the log. -/
def lastLsn (fs : List LogFile) : Nat := (entriesOf fs).foldl (fun m e => max m e.lsn) 0

/-- A running database: the log holds `fs`, the last file is complete, and the
next record goes to its end. -/
def Running (crcOn : Bool) (fs : List LogFile) (s : State) : Prop :=
  LogWF crcOn fs ∧ Holds crcOn fs s.dir ∧ s.lsn = lastLsn fs ∧
  ∃ f bs, fs.getLast? = some f ∧ f.torn = [] ∧ content crcOn f.entries = .ok bs ∧
    s.current = some ⟨f.id, bs.length, bs.length⟩ ∧ f.id ≤ s.lsn + 1

/-- Numbers stay in range, and there is enough fuel for all records. -/
def InRange (fs : List LogFile) (s : State) (ops : List Op) (fuel : Nat) : Prop :=
  s.lsn + ops.length + 2 < 18446744073709551615 ∧ (entriesOf fs).length + ops.length < fuel

/-- Only batches were logged. -/
def Batches (l : List Entry) : Prop := ∀ e ∈ l, ∃ n es, e = .write n es

/-- Only batches will be logged. -/
def opBatch : Op → Bool
  | .log k => k.isBatch
  | _ => true

/-- The log files stay at most 3 GiB long. -/
def StaysSmall (crcOn : Bool) (base fuel : Nat) (s : State) (ops : List Op) : Prop :=
  ∀ (ops1 ops2 : List Op) (s1 : State), ops = ops1 ++ ops2 → run crcOn base fuel s ops1 = .ok s1 → Small s1.dir

/-- The full property: both restarts find everything acknowledged before. -/
def Full : Prop :=
  ∀ (crcOn : Bool) (base fuel : Nat) (fs : List LogFile) (s : State) (k : Kind) (b : Bytes) (n : Nat) (ops : List Op),
    Running crcOn fs s → InRange fs s ops fuel → base ≤ s.lsn → k.Good crcOn →
    (k.entry (s.lsn + 1)).bytes crcOn = .ok b → n < b.length → (∀ op ∈ ops, opGood crcOn op) →
    story crcOn base fuel s k n ops =
      .ok ((entriesOf fs).map (·.record), (entriesOf fs ++ logged s.lsn ops).map (·.record))

end Verif.C23
