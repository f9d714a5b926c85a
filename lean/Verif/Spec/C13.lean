import Verif.Model.MergeIterator
import Verif.Spec.Table

/-!
C13: merging sorted sources gives the sorted union; the earliest added source
wins.
-/
namespace Verif.C13
open Spec

/-- A source behaves as the list `L`: it shows the head, and `next` moves on to
the tail.  Nothing is asked of `next` at the end. -/
def Yields {ι : Type} (f : IterFns ι) : ι → List Event → Prop
  | it, [] => f.at' it = none
  | it, e :: L => f.at' it = some e ∧ ∃ it', f.next it = .ok it' ∧ Yields f it' L

/-- The pairs of (source, contents) given to the merge, in order of adding. -/
def Sources {ι : Type} (f : IterFns ι) : List ι → List (List Event) → Prop
  | [], [] => True
  | it :: its, L :: Ls => Yields f it L ∧ Sources f its Ls
  | _, _ => False

/-- `M` is the merge of `Ls`: ascending with each key once, and an event is in
it exactly when it is the first of its key in the order of the sources. -/
def Merged (Ls : List (List Event)) (M : List Event) : Prop :=
  Ascending M ∧ ∀ x, x ∈ M ↔ Ls.flatten.find? (fun a => a.pair == x.pair) = some x

/-- Add all sources, open, read to the end. -/
def mergeAll {ι : Type} (mc : MemCmp) (f : IterFns ι) (fuel : Nat) (its : List ι) : Res (List Event) :=
  (Merge.openIt mc f (its.foldl Merge.add Merge.init)).bind (Merge.drain mc f fuel)

/-- Events whose ids are in a window of 2^63. -/
def Window (base : Nat) (e : Event) : Prop := base ≤ e.id ∧ e.id < base + 9223372036854775808

/-- The claim for sources with the given contents. -/
def MergesOK (Ls : List (List Event)) : Prop :=
  ∀ (ι : Type) (mc : MemCmp) (f : IterFns ι) (its : List ι), Sources f its Ls →
    ∃ M, Merged Ls M ∧ ∀ fuel, Ls.flatten.length ≤ fuel → mergeAll mc f fuel its = .ok M

/-- The full property: all sorted contents with 64-bit ids. -/
def Full : Prop :=
  ∀ Ls : List (List Event), (∀ L ∈ Ls, Ascending L ∧ ∀ e ∈ L, e.id < 18446744073709551616) →
    MergesOK Ls

end Verif.C13
