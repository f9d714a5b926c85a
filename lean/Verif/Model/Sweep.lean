import Verif.Model.Cursor

/-!
Model of an application that reads with a cursor and writes or deletes the event
that the cursor is on (main/api/monotone.c, engine/engine/engine_cursor.h,
engine/engine/write.c, engine/io/memtable_iterator.h): the table that takes the
writes is the one that the iterator of the cursor is attached to.

The partitions are a list in the order of their ranges: the lookup of the
partition after a range is C03 and C11.  There is no other thread, the log and
the allocations do not fail.
-/
namespace Verif.Sweep
open Io Cursor

/-- `struct EngineCursor` with a partition, engine/engine/engine_cursor.h:18-23.
`part` is the partition as it is now; `att` says that part_cursor_open added the
table that takes the writes (engine/io/part_cursor.h:34-43), which is then the
first source of the merge and has its iterator attached
(engine/io/memtable_iterator.h:49-54). -/
structure Open where
  part : CPart
  att : Bool
  cursor : Merge Src

/-- The partitions before the one the cursor is in, that one, and those after
it. -/
structure State where
  past : List CPart
  cur : Option Open
  todo : List CPart

/-- All partitions, in order. -/
def State.parts (st : State) : List CPart :=
  st.past ++ (match st.cur with | some o => [o.part] | none => []) ++ st.todo

/-- engine_cursor_open_part, engine_cursor.h:25-37, for the next partition. -/
def openNext (cs : Codecs) (mc : MemCmp) (past : List CPart) : List CPart → Res State
  | [] => .ok ⟨past, none, []⟩
  | p :: ps => (partOpen cs mc p none).bind fun mi => .ok ⟨past, some ⟨p, decide (p.act.count > 0), mi⟩, ps⟩

/-- engine_cursor_next, engine_cursor.h:90-110. -/
def next (cs : Codecs) (mc : MemCmp) (st : State) : Res State :=
  match st.cur with
  | none => .ok st
  | some o =>
    (Merge.next mc (fns cs mc) o.cursor).bind fun mi =>
    if mi.has then .ok { st with cur := some { o with cursor := mi } }
    else openNext cs mc (st.past ++ [o.part]) st.todo

/-- engine_cursor_open without a key, engine_cursor.h:42-57. -/
def open_ (cs : Codecs) (mc : MemCmp) (ps : List CPart) : Res State :=
  (openNext cs mc [] ps).bind fun st =>
  match st.cur with
  | some o => if o.cursor.has then .ok st else next cs mc st
  | none => .ok st

/-- engine_cursor_at, engine_cursor.h:78-82. -/
def at_ (cs : Codecs) (mc : MemCmp) (st : State) : Res (Option Event) :=
  match st.cur with
  | some o => o.cursor.at' (fns cs mc)
  | none => .ok none

/-- engine_cursor_skip_deletes, engine_cursor.h:112-123; `none` when the loop has
not ended after `fuel` turns. -/
def skip (cs : Codecs) (mc : MemCmp) : Nat → State → Res (Option State)
  | 0, _ => .ok none
  | n + 1, st =>
    match st.cur with
    | none => .ok (some st)
    | some _ =>
      (at_ cs mc st).bind fun
      | some e => if e.isDelete then (next cs mc st).bind (skip cs mc n) else .ok (some st)
      | none => (next cs mc st).bind (skip cs mc n)

/-- monotone_read, main/api/monotone.c:212-244: the event, or `none` for the
result 0, which is the end or a deleted event. -/
def read (cs : Codecs) (mc : MemCmp) (st : State) : Res (Option Event) :=
  (at_ cs mc st).bind fun
  | some e => .ok (if e.isDelete then none else some e)
  | none => .ok none

/-- engine_write (engine/engine/write.c:74-138) of one event with the key that
the cursor is on, whose partition is the one the cursor is in.  memtable_set
moves the attached iterator (memtable_sync, engine/io/memtable.c:185-194).  An
iterator at the end, which may not be attached, is not moved. -/
def write (mc : MemCmp) (st : State) (e : Event) : Res State :=
  match st.cur with
  | none => .ub "no partition"
  | some o =>
    if o.att then
      match o.cursor.list with
      | ⟨.mem _ it, adv⟩ :: rest =>
        (Memtable.set mc true { o.part.act with iters := [it] } e).bind fun (m, _) =>
        match m.iters with
        | [it'] =>
          let m := { m with iters := [] }
          .ok { st with cur := some ⟨{ o.part with act := m }, true,
            { o.cursor with list := ⟨.mem m it', adv⟩ :: rest }⟩ }
        | _ => .ub "iterator lost"
      | _ => .ub "no table"
    else
      (Memtable.set mc true o.part.act e).bind fun (m, _) =>
      .ok { st with cur := some { o with part := { o.part with act := m } } }

/-- monotone_next, main/api/monotone.c:246-261. -/
def step (cs : Codecs) (mc : MemCmp) (fuel : Nat) (st : State) : Res (Option State) :=
  (next cs mc st).bind (skip cs mc fuel)

/-- What the application does for the event `e` it has read: monotone_write of
another event with the same key (main/api/monotone.c:152-166), or nothing. -/
def edit (mc : MemCmp) (change : Event → Option Event) (e : Event) (st : State) : Res State :=
  match change e with
  | some d => write mc st d
  | none => .ok st

/-- The loop of the application: monotone_read until it reports the end; for each
event `edit`, then monotone_next.
Returns the events read and the state; `none` when it has not ended after `n`
events. -/
def loop (cs : Codecs) (mc : MemCmp) (change : Event → Option Event) (fuel : Nat) :
    Nat → State → Res (Option (List Event × State))
  | 0, _ => .ok none
  | n + 1, st =>
    (read cs mc st).bind fun
    | none => .ok (some ([], st))
    | some e =>
      (edit mc change e st).bind fun st =>
      (step cs mc fuel st).bind fun
      | none => .ok none
      | some st => (loop cs mc change fuel n st).bind fun
        | none => .ok none
        | some (es, st) => .ok (some (e :: es, st))

/-- monotone_cursor (main/api/monotone.c:167-210) without a key, and the loop. -/
def sweep (cs : Codecs) (mc : MemCmp) (change : Event → Option Event) (fuel : Nat) (ps : List CPart) :
    Res (Option (List Event × State)) :=
  (open_ cs mc ps).bind fun st =>
  (skip cs mc fuel st).bind fun
  | none => .ok none
  | some st => loop cs mc change fuel fuel st

end Verif.Sweep
