import Verif.Spec.C07

/-! C30: open cursors stay ordered under concurrent writes. -/
namespace Verif.C30
open Spec C07

/-- What a thread with an open cursor does. -/
inductive Op where
  | write (e : Event)
  | next
deriving Repr, DecidableEq

/-- One operation on a table to which one iterator is attached. -/
def step (mc : MemCmp) (m : Memtable) : Op → Res Memtable
  | .write e => (Memtable.set mc true m e).bind fun r => .ok r.1
  | .next =>
    match m.iters with
    | [it] => (Memtable.iterNext m it).bind fun it' => .ok { m with iters := [it'] }
    | _ => .ok m

/-- The event the cursor is on after each operation. -/
def shows (mc : MemCmp) : Memtable → List Op → Res (List (Option Event))
  | _, [] => .ok []
  | m, o :: os =>
    (step mc m o).bind fun m' =>
    (shows mc m' os).bind fun l =>
    match m'.iters with
    | [it] => .ok (it.current :: l)
    | _ => .ub "no iterator"

/-- Opening the cursor at the first event.  (An iterator that opens at the end is
not attached; nothing moves it, memtable_iterator_sync skips it.) -/
def opened (mc : MemCmp) (m : Memtable) : Res Memtable :=
  (Memtable.iterOpen mc m none).bind fun r => .ok { m with iters := [r.1] }

/-- The table and the event a cursor has to be on. -/
abbrev Ref := List Event × Option Event

/-- A write changes the table; the cursor stays on its key and shows its current
version.  Next moves to the first event with a larger key; at the end the cursor
stays there. -/
def refStep (s : Ref) : Op → Ref
  | .write e => (put e s.1, s.2.bind fun k => (put e s.1).find? fun a => a.pair == k.pair)
  | .next => (s.1, s.2.bind fun k => s.1.find? fun a => decide (evCmp k a < 0))

def refShows : Ref → List Op → List (Option Event)
  | _, [] => []
  | s, o :: os => (refStep s o).2 :: refShows (refStep s o) os

/-- The cursor shows what it has to. -/
def Follows (mc : MemCmp) (es : List Event) (m : Memtable) (ops : List Op) : Prop :=
  ∃ m', opened mc m = .ok m' ∧ shows mc m' ops = .ok (refShows (table es, (table es).head?) ops)

/-- The property, for tables filled by any writes. -/
def Full (sp ss : Nat) : Prop :=
  ∀ mc base es ops m ps, (∀ e ∈ es, Within base e) → (∀ e, Op.write e ∈ ops → Within base e) →
    C07.run mc (Memtable.init sp ss) es = .ok (m, ps) → Follows mc es m ops

/-- The events written by a sequence of operations. -/
def writes : List Op → List Event
  | [] => []
  | .write e :: os => e :: writes os
  | .next :: os => writes os

/-- How many events of the table are below a key. -/
def index (L : List Event) (k : Event) : Nat := (L.filter fun a => evCmp a k < 0).length

/-- Events on the last page of a table of `n` events. -/
def lastLen (sp ss : Nat) : Nat → Nat
  | 0 => 0
  | n + 1 => if lastLen sp ss n = sp then sp - ss + 1 else lastLen sp ss n + 1

/-- A write that does not disturb a cursor on `k`: the cursor is on an earlier
page; or it replaces an event at or after the cursor; or the page has room and
the event does not go directly before the cursor; or the page is split and the
cursor is on the part that moves, or before the place of the event in the new
page. -/
def Harmless (sp ss : Nat) (L : List Event) (k e : Event) : Prop :=
  let start := L.length - lastLen sp ss L.length
  index L k < start ∨
  if ∃ a ∈ L, a.pair = e.pair then index L k ≤ index L e
  else if lastLen sp ss L.length < sp then index L e ≠ index L k
  else start + ss ≤ index L k ∨ index L k + ss ≤ index L e

/-- All writes are harmless. -/
def AllHarmless (sp ss : Nat) : Ref → List Op → Prop
  | _, [] => True
  | s, o :: os =>
    (∀ e k, o = .write e → s.2 = some k → Harmless sp ss s.1 k e) ∧ AllHarmless sp ss (refStep s o) os

end Verif.C30
