import Verif.Spec.C07

/-!
C08: opening an in-memory iterator at a key positions on the first event at or
after it.
-/
namespace Verif.C08
open Spec C07

/-- Opening at `k` and reading to the end gives all events at or after `k`; the
open reports whether `k` is stored. -/
def Seeks (mc : MemCmp) (m : Memtable) (L : List Event) (k : Event) : Prop :=
  Memtable.scan mc m (some k) = .ok (atOrAfter k L) ∧
  ∃ it, Memtable.iterOpen mc m (some k) = .ok (it, decide (∃ a ∈ L, a.pair = k.pair)) ∧
    it.current = (atOrAfter k L).head?

/-- The full property, for any table that a scan lists as `L` in order. -/
def Full (sizePage sizeSplit : Nat) : Prop :=
  ∀ (mc : MemCmp) (base : Nat) (es : List Event) (k : Event), (∀ e ∈ es, Within base e) →
    Within base k →
    ∀ m prevs, run mc (Memtable.init sizePage sizeSplit) es = .ok (m, prevs) →
      ∀ L, Memtable.scan mc m none = .ok L → Ascending L → Seeks mc m L k

end Verif.C08
