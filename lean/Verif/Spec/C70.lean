import Verif.Model.Paths

/-! C70: every file of an environment has a path of its own, and the directory of
a storage has only files of that storage. -/
namespace Verif.C70
open Paths

/-- The files which the program makes, by what they are for: `part` is a file of
a partition of the storage `s`, `mock` what the test cloud keeps of it. -/
inductive File where
  | config
  | configOld
  | log
  | wal (id : Nat)
  | part (s : Source) (min : Nat) (state : FState)
  | mock (s : Source) (min : Nat)
deriving Repr, DecidableEq

/-- The path at which the program has the file. -/
def path (base : List Nat) : File → List Nat
  | .config => config_path base
  | .configOld => old_path base
  | .log => log_path base
  | .wal id => wal_path base id
  | .part s min st => id_path base s min st
  | .mock s min => mock_path base s min

/-- A file that can be there when `l` are the storages. -/
def Valid (l : List Source) : File → Prop
  | .wal id => id < 18446744073709551616
  | .part s min _ => s ∈ l ∧ min < 18446744073709551616
  | .mock s min => s ∈ l ∧ min < 18446744073709551616
  | _ => True

/-- What is claimed of an environment in `base` with the storages `l`. -/
def Own (base : List Nat) (l : List Source) : Prop :=
  -- no storage is there twice
  l.Nodup ∧
  -- files with the same path are the same
  (∀ f g, Valid l f → Valid l g → path base f = path base g → f = g) ∧
  -- a file in the directory of a storage which recovery takes for a partition file
  -- (engine_recover lists the directory and asks engine_recover_id of each name) is
  -- that partition file, of that storage
  (∀ s ∈ l, ∀ f name min st, Valid l f → slash ∉ name → path base f = source_pathfmt base s [] ++ name →
    FileName.recoverId name = .ok (some (min, st)) → f = .part s min st) ∧
  -- and every partition file of the storage is there
  (∀ s ∈ l, ∀ min st, path base (.part s min st) = source_pathfmt base s [] ++ FileName.idName min st)

/-- The numbers of a uuid have 64 bits. -/
def Legal (u : Uuid) : Prop := u.a < 18446744073709551616 ∧ u.b < 18446744073709551616

/-- The uuids with which storages get created, and whether they are legal. -/
def uuids : List Cmd → List Uuid
  | [] => []
  | .create s _ :: cs => s.uuid :: uuids cs
  | _ :: cs => uuids cs

/-- The full property: in every environment, whatever commands are given. -/
def Full : Prop :=
  ∀ base uuid cs, Legal uuid → (∀ u ∈ uuids cs, Legal u) → Own base (storages uuid cs)

/-- Length of the longest path a storage with this path setting needs: directory,
uuid (36), twenty digits and ".cloud.incomplete", and the slashes. -/
def longest (base path : List Nat) : Nat :=
  (if path = [] then base.length else if path.head? = some 47 then path.length
    else base.length + 1 + path.length) + 1 + 36 + 1 + 20 + 17

/-- The path settings in a command. -/
def settings : Cmd → List (List Nat)
  | .create s _ => [s.path]
  | .alter _ p _ _ => [p]
  | _ => []

/-- Restriction of the partial theorem: no uuid is given to two storages, and all
paths fit into the arrays. -/
def Tame (base : List Nat) (uuid : Uuid) (cs : List Cmd) : Prop :=
  (uuid :: uuids cs).Nodup ∧ longest base [] ≤ 4095 ∧
  ∀ c ∈ cs, ∀ p ∈ settings c, longest base p ≤ 4095

end Verif.C70
