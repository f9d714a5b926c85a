import Verif.Model.Sweep
import Verif.Spec.Cursor

/-!
C88: an application that reads with a cursor and changes or deletes the events it
is on gets every event once, and its changes stay.
-/
namespace Verif.C88
open Spec Cursor Io

/-- What the application does: for an event it writes nothing or another event
with the same id and key. -/
def Own (change : Event → Option Event) : Prop := ∀ e d, change e = some d → d.pair = e.pair

/-- The live events of a partition, in order. -/
def Lives (c : Content) (M : List Event) : Prop :=
  Ascending M ∧ ∀ x, x ∈ M ↔ x.isDelete = false ∧ c.current x = some x

/-- The contents after the changes for the live events `M`: they were written one
after the other. -/
def Content.changed (c : Content) (change : Event → Option Event) (M : List Event) : Content :=
  { c with act := c.act ++ M.filterMap change }

/-- Lists of partitions, their contents and the live events of each. -/
def AllOf {α β : Type} (R : α → β → Prop) : List α → List β → Prop
  | [], [] => True
  | a :: as, b :: bs => R a b ∧ AllOf R as bs
  | _, _ => False

/-- The loop ends, has read the live events of all partitions, each once and in
order, and the partitions hold the changes, no more and no less. -/
def Sweeps (cs : Codecs) (mc : MemCmp) (sp ss : Nat) (change : Event → Option Event) (ps : List CPart)
    (ct : List Content) : Prop :=
  ∃ Ms ps', AllOf Lives ct Ms ∧
    AllOf (Built cs mc sp ss) (List.zipWith (fun c M => Content.changed c change M) ct Ms) ps' ∧
    ∃ n, ∀ fuel ≥ n, ∃ st, Sweep.sweep cs mc change fuel ps = .ok (some (Ms.flatten, st)) ∧ st.parts = ps'

/-- Partitions with their contents: ids below 2^63 and within 2^31 of each other,
events with the field widths of the code, the file written in order, tables
within the limits of C07. -/
structure Held (cs : Codecs) (mc : MemCmp) (sp ss : Nat) (c : Content) (p : CPart) : Prop where
  built : Built cs mc sp ss c p
  wf : ∀ e ∈ c.all, Io.WF e
  below : ∀ e ∈ c.all, e.id < 9223372036854775808
  sorted : Ascending c.stored
  within : ∃ base, ∀ e ∈ c.all, Within base e
  act : C07.Tame sp ss c.act
  prev : C07.Tame sp ss c.prev

/-- The property: for all partitions, contents and changes. -/
def Full (sp ss : Nat) : Prop :=
  ∀ cs mc change (ps : List CPart) (ct : List Content), Own change → AllOf (Held cs mc sp ss) ct ps →
    Sweeps cs mc sp ss change ps ct

/-- The table that takes the writes stays on one page: its events and one for each
change. -/
def Fits (sp : Nat) (change : Event → Option Event) (c : Content) : Prop :=
  ∀ M, Lives c M → (C07.table c.act).length + (M.filterMap change).length ≤ sp

/-- Changes the cursor does not show again: deletes, changes of events that are in
the table that takes the writes, and changes of events after all of those in
it (all events, if it is empty). -/
def Quiet (change : Event → Option Event) (c : Content) : Prop :=
  ∀ e d, e.isDelete = false → c.current e = some e → change e = some d →
    d.isDelete = true ∨ (∃ a ∈ c.act, a.pair = e.pair) ∨ ∀ a ∈ c.act, evCmp a e < 0

/-- The change of an event that is read again: it is no delete, the event is not in
the table that takes the writes, and a later event is. -/
def again (change : Event → Option Event) (act : List Event) (e : Event) : Option Event :=
  match change e with
  | none => none
  | some d =>
    if d.isDelete then none
    else if act.any (fun a => a.pair == e.pair) then none
    else if act.any (fun a => decide (evCmp e a < 0)) then some d
    else none

/-- What is read if the live events are `M`: some of the changes too. -/
def reads (change : Event → Option Event) (act M : List Event) : List Event :=
  M.flatMap fun e => e :: (again change act e).toList

/-- What is written: some of the changes are changed once more. -/
def writes (change : Event → Option Event) (act M : List Event) : List Event :=
  M.flatMap fun e => (change e).toList ++ ((again change act e).bind change).toList

/-- What the loop does with any changes: events whose change is read again are
changed a second time, and no third time. -/
def Repeats (cs : Codecs) (mc : MemCmp) (sp ss : Nat) (change : Event → Option Event) (ps : List CPart)
    (ct : List Content) : Prop :=
  ∃ Ms ps', AllOf Lives ct Ms ∧
    AllOf (Built cs mc sp ss)
      (List.zipWith (fun c M => { c with act := c.act ++ writes change c.act M }) ct Ms) ps' ∧
    ∃ n, ∀ fuel ≥ n, ∃ st, Sweep.sweep cs mc change fuel ps =
      .ok (some ((List.zipWith (fun c M => reads change c.act M) ct Ms).flatten, st)) ∧ st.parts = ps'

/-- The table that takes the writes stays on one page. -/
def Room (sp : Nat) (change : Event → Option Event) (c : Content) : Prop :=
  ∀ M, Lives c M → (C07.table c.act).length + (writes change c.act M).length ≤ sp

end Verif.C88
