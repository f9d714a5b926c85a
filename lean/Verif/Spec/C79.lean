import Verif.Model.Hold

/-!
C79, stated apart from the model: which locks may be held before a call, in which
order they may be taken, and what "given back" means.
-/
namespace Verif.C79
open Verif.Hold

/-- Locks that are only held for a moment, and how deep they lie: while one of them
is held, only deeper ones may be taken.  0 for the others. -/
def depth : Lock → Nat
  | .mutex => 1
  | .wal => 1
  | .queue => 2
  | .walId => 2
  | .memory => 2
  | _ => 0

/-- The rules for one action, with the locks held before it.  A partition's lock is
taken and given back under the mutex of the engine, and under no other short lock
("mutex must be always taken before this call", engine/engine/lockage.h:65, 94); the
control lock is taken under no short lock. -/
def Allowed : Act → List Lock → Prop
  | .take (.access _), h => .mutex ∈ h ∧ ∀ m ∈ h, depth m ≤ 1
  | .take (.service _), h => .mutex ∈ h ∧ ∀ m ∈ h, depth m ≤ 1
  | .take .shared, h => ∀ m ∈ h, depth m = 0
  | .take .exclusive, h => ∀ m ∈ h, depth m = 0
  | .take l, h => ∀ m ∈ h, depth m < depth l
  | .give (.access _), h => .mutex ∈ h
  | .give (.service _), h => .mutex ∈ h
  | .give _, _ => True

def Orderly (acts : List (Act × List Lock)) : Prop := ∀ x ∈ acts, Allowed x.1 x.2

/-- Calls that may take the control lock exclusively. -/
def alters : Call → Bool
  | .open => true
  | .work => true
  | .write _ => false
  | .execute c => match c with
    | .set => true
    | .change => true
    | .checkpoint => true
    | .service => true
    | .rebalance => true
    | .partitionDrop _ whole => whole
    | .partitionDropRange whole => whole
    | _ => false

/-- What a thread may hold when it calls: the locks of open cursors, or nothing if
the call may take the control lock exclusively (C59 is about threads that do it
nevertheless). -/
def Fit (c : Call) (held : List Lock) : Prop :=
  (∀ l ∈ held, l = .shared ∨ ∃ i, l = .access i) ∧ (alters c = true → held = [])

/-- Steps that fail while a lock is held that nothing gives back. -/
def leaks : List Site := [.commitRequest, .rotateId, .tierName]

/-- Steps after which a rollback is undefined (C09), and events that do not fit into
a page. -/
def crashes : List Site := [.firstRecord, .large, .event, .iov, .firstPage]

/-- None of these steps fails. -/
def Spared (sites : List Site) (w : World) : Prop := ∀ x ∈ sites, ∀ n, w.fails x n = false

/-- C79 in full.  Whatever fails, whatever the data are: a call of the library ends
with the locks it began with, it never waits for itself, never gives back what it does
not have, and takes locks in the order of their depth. -/
def Full : Prop := ∀ (w : World) (c : Call) (s : St), Fit c s.held → Orderly s.acts →
  match call c w s with
  | .ok _ s' => s'.held.Perm s.held ∧ Orderly s'.acts
  | .spin => True
  | _ => False

end Verif.C79
