import Verif.Model.Guard

/-! C50: cleanup handlers run exactly once, innermost first. -/
namespace Verif.C50

/-- The meaning of a block, `gs` being the cleanups registered in it and still
active, last first: what is observed, and whether the block ends with an error.
Whichever way the block is left, its active cleanups run then, once each, last
registered first.  None when an `unguard` has no cleanup of its own block. -/
def meaning : GProg → List Nat → Option (List GObs × Bool)
  | .done, gs => some (gs.map .ran, false)
  | .act i k, gs => (meaning k gs).map fun r => (.did i :: r.1, r.2)
  | .guard f k, gs => meaning k (f :: gs)
  | .unguard _, [] => none
  | .unguard k, _ :: gs => meaning k gs
  | .throw, gs => some (gs.map .ran, true)
  | .block b k, gs =>
    match meaning b [] with
    | none => none
    | some (l, true) => some (l ++ gs.map .ran, true)
    | some (l, false) => (meaning k gs).map fun r => (l ++ r.1, r.2)
  | .tryCatch b h k, gs =>
    match meaning b [] with
    | none => none
    | some (l, false) => (meaning k gs).map fun r => (l ++ r.1, r.2)
    | some (l, true) =>
      match meaning h [] with
      | none => none
      | some (l2, true) => some (l ++ l2 ++ gs.map .ran, true)
      | some (l2, false) => (meaning k gs).map fun r => (l ++ l2 ++ r.1, r.2)

/-- The full property: a program under a catch point behaves as it means. -/
def Full : Prop :=
  ∀ p l o, meaning p [] = some (l, o) →
    ∃ s, Exc.exec (.tryCatch p .done .done) Exc.init [] = .ok (s, false) ∧ s.log = l ∧ s.frames = []

end Verif.C50
