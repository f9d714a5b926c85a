import Verif.Model.Memtable
import Verif.Spec.Table

/-!
C07: the in-memory table of a partition is a sorted map from (id, key) to the
last written event.
-/
namespace Verif.C07
open Spec

/-- Writes a sequence of events with the code model; collects the previous
versions reported. -/
def run (mc : MemCmp) : Memtable → List Event → Res (Memtable × List (Option Event))
  | m, [] => .ok (m, [])
  | m, e :: es =>
    (Memtable.set mc true m e).bind fun (m', prev) =>
    (run mc m' es).bind fun (m'', ps) => .ok (m'', prev :: ps)

/-- The last written event with the key of `k`. -/
def lastOf (k : Event) (es : List Event) : Option Event :=
  es.reverse.find? (fun a => evCmp a k == 0)

/-- What a reader and the writer must see after the writes `es`: the writes
reported the previous versions, and a scan is ascending and holds for each key
exactly its last version. -/
def Correct (mc : MemCmp) (es : List Event) (m : Memtable) (prevs : List (Option Event)) : Prop :=
  (∀ pre e post, es = pre ++ e :: post → prevs[pre.length]? = some (lastOf e pre)) ∧
  prevs.length = es.length ∧
  ∃ L, Memtable.scan mc m none = .ok L ∧ Ascending L ∧ ∀ e, lastOf e es = some e ↔ e ∈ L

/-- The full property: any sequence of writes to one partition, whose ids span
less than 2^31 (C01 covers what happens beyond that). -/
def Full (sizePage sizeSplit : Nat) : Prop :=
  ∀ (mc : MemCmp) (base : Nat) (es : List Event), (∀ e ∈ es, Within base e) →
    ∃ m prevs, run mc (Memtable.init sizePage sizeSplit) es = .ok (m, prevs) ∧ Correct mc es m prevs

/-- The distinct keys written. -/
def table (es : List Event) : List Event := es.foldl (fun L e => put e L) []

/-- Restriction under which the code is right: each write goes to a table that
fits one page, or is among the last `sizePage - sizeSplit` keys of the table
(e.g. an append). -/
def Tame (sizePage sizeSplit : Nat) (es : List Event) : Prop :=
  ∀ pre e post, es = pre ++ e :: post →
    (table (pre ++ [e])).length ≤ sizePage ∨
    ((table pre).filter (fun a => evCmp a e > 0)).length < sizePage - sizeSplit

end Verif.C07
