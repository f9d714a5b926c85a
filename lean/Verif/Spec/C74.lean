import Verif.Model.Races
import Verif.Spec.C71

/-! C74: no two threads touch the same data at the same time, one of them writing. -/
namespace Verif.C74
open Races
open Access (How Ty Instr lockOf)

/-- What a program or a worker asks for.  Cursors are numbered. -/
inductive Call where
  | write (es : List (Nat × How)) (back : Bool)
  | open_ (c id : Nat)
  | read (c : Nat)
  | move (c id : Nat)
  | close (c : Nat)
  | foreach_ (id : Nat)
  | dropFile (id : Nat) (stop : Bool)
  | download (id : Nat) (stop : Bool)
  | upload (id : Nat) (stop : Bool)
  | refresh (id : Nat) (stop : Instr.Stop)
  | drop (id : Nat) (empty : Bool)
  | fill (id min max : Nat)
  | show_
  | gc
  | rebalance (id : Nat)
  | checkpoint
  | resume
deriving Repr, DecidableEq

/-- What that does.  Cursor `c` is variable `2 * c`. -/
def Call.code : Call → List Code
  | .write es back => Code.engine_write es back
  | .open_ c id => Code.cursor_open (2 * c) id
  | .read c => Code.cursor_use (2 * c)
  | .move c id => Code.cursor_close (2 * c) ++ Code.cursor_open (2 * c) id
  | .close c => Code.cursor_close (2 * c)
  | .foreach_ id => Code.engine_foreach 1 id
  | .dropFile id stop => Code.engine_drop_file 1 id stop
  | .download id stop => Code.engine_download 1 id stop
  | .upload id stop => Code.engine_upload 1 id stop
  | .refresh id stop => Code.refresh_run 1 id stop
  | .drop id empty => Code.engine_drop_reference id empty
  | .fill id min max => Code.engine_fill 1 id min max
  | .show_ => Code.engine_show
  | .gc => Code.engine_gc
  | .rebalance id => Code.engine_rebalance id
  | .checkpoint => Code.engine_checkpoint
  | .resume => Code.engine_resume

/-- The program opens cursors that are not open, and reads, moves and closes those
that are. -/
def Proper : List Nat → List Call → Prop
  | _, [] => True
  | o, .open_ c _ :: l => c ∉ o ∧ Proper (c :: o) l
  | o, .read c :: l => c ∈ o ∧ Proper o l
  | o, .move c _ :: l => c ∈ o ∧ Proper o l
  | o, .close c :: l => c ∈ o ∧ Proper (o.filter (· ≠ c)) l
  | o, _ :: l => Proper o l

/-- The program has one cursor at a time, does nothing else meanwhile, and writes
events one by one. -/
def Single : Bool → List Call → Prop
  | _, [] => True
  | o, .open_ _ _ :: l => o = false ∧ Single true l
  | o, .read _ :: l => Single o l
  | o, .move _ _ :: l => Single o l
  | _, .close _ :: l => Single false l
  | o, .write es _ :: l => o = false ∧ es.length ≤ 1 ∧ Single o l
  | o, _ :: l => o = false ∧ Single o l

/-- At the start there are no partitions, and every thread has its calls to do. -/
def start (prog : Nat → List Call) : State where
  base := {
    control := Rwlock.init
    locks := Locks.init
    mem := ⟨[], fun _ => 0, fun _ => false, fun _ => false, 0⟩
    th := fun t => ⟨((prog t).flatMap Call.code).filterMap Code.base, fun _ => none, none⟩ }
  mutex := none
  code := fun t => (prog t).flatMap Call.code

/-- A schedule says which thread runs next. -/
def run (s : State) : List (Nat × Bool) → Res State
  | [] => .ok s
  | (t, w) :: l => (step s t w).bind fun s => run s l

/-- Two different threads are about to touch the same place, and one of them writes. -/
def Race (s : State) (x y : Acc) : Prop :=
  ∃ t u, t ≠ u ∧ x ∈ accesses s t ∧ y ∈ accesses s u ∧ x.loc = y.loc ∧ (x.w = true ∨ y.w = true)

/-- The full property: whatever threads do and however they take turns, there is no race. -/
def Full : Prop :=
  ∀ (n : Nat) (prog : Nat → List Call), (∀ t, Proper [] (prog t)) →
    ∀ sched : List (Nat × Bool), (∀ x ∈ sched, x.1 < n) → ∀ s, run (start prog) sched = .ok s → ∀ x y, ¬ Race s x y

/-- The races there are: `SHOW` reads the index and the state of partitions, and what
their memtables take, under the engine mutex, while writes, `DROP ... ON STORAGE` and
downloads change them under locks of the partition; a download reads the index again
while cursors read it; and the mark for refresh is changed by writes under the access
lock and by rebalancing under the mutex. -/
def Known (f g : Fn) : Field → Prop
  | .state => f = .engine_show ∧ g = .engine_drop_file
  | .index => f = .engine_show ∧ (g = .engine_drop_file ∨ g = .engine_download) ∨
      f = .part_cursor ∧ g = .engine_download
  | .active => f = .engine_show ∧ (g = .engine_write ∨ g = .engine_rollback)
  | .refresh => f = .engine_commit ∧ g = .engine_rebalance
  | .rotated => False
  | .cloud => False

/-- The next thing thread `t` does is to take a lock that it already has. -/
def Nests (s : State) (t : Nat) : Prop :=
  ∃ i ty fn k v, s.code t = .op (.lock i ty) fn :: k ∧ (s.base.th t).slot i = some v ∧
    (s.base.locks.lock (lockOf v.ref ty)).locker = some t

/-- No thread takes a lock that it already has. -/
def Calm (s : State) : List (Nat × Bool) → Prop
  | [] => True
  | (t, w) :: l => ¬ Nests s t ∧ ∀ s', step s t w = .ok s' → Calm s' l

/-- The call is none of those that race. -/
def Quiet : Call → Prop
  | .show_ => False
  | .download _ _ => False
  | .rebalance _ => False
  | _ => True

end Verif.C74
