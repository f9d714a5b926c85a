import Verif.Model.Basic

/-! Partition file names: cloud/cloud/id.h and engine/engine/engine_recover.c.
Characters are byte values; a name is the C string without its NUL. -/
namespace Verif

/-- The file states of cloud/cloud/id.h:18-26 that have a name. -/
inductive FState where
  | id
  | incomplete
  | complete
  | cloud
  | cloudIncomplete
deriving Repr, DecidableEq

namespace FileName

/-- Digits of printf's zero padded decimal, `w` of them (the value is below
10^w). -/
def decPad : Nat → Nat → List Nat
  | 0, _ => []
  | w + 1, n => (48 + n / 10 ^ w % 10) :: decPad w n

/-- ".incomplete" -/
def sIncomplete : List Nat := [46, 105, 110, 99, 111, 109, 112, 108, 101, 116, 101]
/-- ".complete" -/
def sComplete : List Nat := [46, 99, 111, 109, 112, 108, 101, 116, 101]
/-- ".cloud" -/
def sCloud : List Nat := [46, 99, 108, 111, 117, 100]
/-- ".cloud.incomplete" -/
def sCloudIncomplete : List Nat := sCloud ++ sIncomplete

/-- The part of the path after the storage directory made by id_path,
cloud/cloud/id.h:34-68: `"%020" PRIu64` and a suffix. -/
def idName (min : Nat) : FState → List Nat
  | .id => decPad 20 min
  | .incomplete => decPad 20 min ++ sIncomplete
  | .complete => decPad 20 min ++ sComplete
  | .cloud => decPad 20 min ++ sCloud
  | .cloudIncomplete => decPad 20 min ++ sCloudIncomplete

/-- The loop of engine_recover_id, engine_recover.c:31-38: number and rest of
the name, `none` for `return -1`.  `isdigit` of a negative `char` (byte >= 128)
is undefined. -/
def digits : List Nat → Nat → Res (Option (Nat × List Nat))
  | [], n => .ok (some (n, []))
  | c :: cs, n =>
    if c = 46 then .ok (some (n, c :: cs))
    else if c ≥ 128 then .ub "isdigit of a negative char"
    else if c < 48 ∨ c > 57 then .ok none
    else digits cs (wrapU64 (n * 10 + c - 48))

/-- engine_recover_id, engine_recover.c:24-56: min and state, `none` for -1. -/
def recoverId (name : List Nat) : Res (Option (Nat × FState)) :=
  (digits name 0).bind fun
    | none => .ok none
    | some (n, rest) =>
      .ok (if rest = [] then some (n, .id)
      else if rest = sIncomplete then some (n, .incomplete)
      else if rest = sComplete then some (n, .complete)
      else if rest = sCloud then some (n, .cloud)
      else if rest = sCloudIncomplete then some (n, .cloudIncomplete)
      else none)

end FileName
end Verif
