import Verif.Model.Access

/-! C71: no thread uses a partition or a reference that has been freed. -/
namespace Verif.C71
open Access

/-- What a program or a worker asks for.  Cursors are numbered. -/
inductive Call where
  | write (es : List (Nat × How)) (back : Bool)
  | open_ (c id : Nat)
  | read (c : Nat)
  | move (c id : Nat)
  | close (c : Nat)
  | foreach_ (id : Nat)
  | file (id : Nat) (stop : Bool)
  | refresh (id : Nat) (stop : Instr.Stop)
  | drop (id : Nat) (empty : Bool)
  | fill (id min max : Nat)
  | look
deriving Repr, DecidableEq

/-- What that does.  Cursor `c` is variable `2 * c`. -/
def Call.code : Call → List Instr
  | .write es back => Instr.engine_write es back
  | .open_ c id => Instr.cursor_open (2 * c) id
  | .read c => Instr.cursor_use (2 * c)
  | .move c id => Instr.cursor_close (2 * c) ++ Instr.cursor_open (2 * c) id
  | .close c => Instr.cursor_close (2 * c)
  | .foreach_ id => Instr.engine_foreach 1 id
  | .file id stop => Instr.engine_file 1 id stop
  | .refresh id stop => Instr.refresh_run 1 id stop
  | .drop id empty => Instr.engine_drop_reference id empty
  | .fill id min max => Instr.engine_fill 1 id min max
  | .look => Instr.engine_look

/-- The program uses cursors as it should: it opens those that are not open, and
reads, moves and closes those that are. -/
def Proper : List Nat → List Call → Prop
  | _, [] => True
  | o, .open_ c _ :: l => c ∉ o ∧ Proper (c :: o) l
  | o, .read c :: l => c ∈ o ∧ Proper o l
  | o, .move c _ :: l => c ∈ o ∧ Proper o l
  | o, .close c :: l => c ∈ o ∧ Proper (o.filter (· ≠ c)) l
  | o, _ :: l => Proper o l

/-- At the start there are no partitions, and every thread has its calls to do. -/
def start (prog : Nat → List Call) : State where
  control := Rwlock.init
  locks := Locks.init
  mem := ⟨[], fun _ => 0, fun _ => false, fun _ => false, 0⟩
  th := fun t => ⟨(prog t).flatMap Call.code, fun _ => none, none⟩

/-- A schedule says which thread runs next. -/
def run (s : State) : List (Nat × Bool) → Res State
  | [] => .ok s
  | (t, w) :: l => (step s t w).bind fun s => run s l

/-- The full property: whatever threads do and however they take turns, nothing
that was freed is used. -/
def Full : Prop :=
  ∀ (n : Nat) (prog : Nat → List Call), (∀ t, Proper [] (prog t)) →
    ∀ sched : List (Nat × Bool), (∀ x ∈ sched, x.1 < n) → ∃ s, run (start prog) sched = .ok s

/-- The next thing thread `t` does is to take a lock that it already has. -/
def Nests (s : State) (t : Nat) : Prop :=
  ∃ i ty k v, (s.th t).todo = .lock i ty :: k ∧ (s.th t).slot i = some v ∧
    (s.locks.lock (lockOf v.ref ty)).locker = some t

/-- No thread takes a lock that it already has. -/
def Calm (s : State) : List (Nat × Bool) → Prop
  | [] => True
  | (t, w) :: l => ¬ Nests s t ∧ ∀ s', step s t w = .ok s' → Calm s' l

/-- The program has one cursor at a time, does nothing else meanwhile, and writes
events one by one. -/
def Single : Bool → List Call → Prop
  | _, [] => True
  | o, .open_ _ _ :: l => o = false ∧ Single true l
  | o, .read _ :: l => Single o l
  | o, .move _ _ :: l => Single o l
  | _, .close _ :: l => Single false l
  | o, .write es _ :: l => o = false ∧ es.length ≤ 1 ∧ Single o l
  | o, _ :: l => o = false ∧ Single o l

end Verif.C71
