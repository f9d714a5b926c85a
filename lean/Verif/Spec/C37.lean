import Verif.Model.Config

/-! C37: settings can only be changed when allowed. -/
namespace Verif.C37
open Config

/-- The variable a name stands for: the first one of the table with that name. -/
def named (cfg : List Var) (name : Bytes) : Option Var := cfg.find? fun v => v.name == name

/-- What SET may do, from the flags of var.h: C (bit 0) "can be set", R (bit 1)
"can be set in runtime", S (bit 3) "secret", Z (bit 5) "cannot be zero". -/
inductive Allowed (online : Bool) : Var → SetValue → Var → Prop
  | bool {v : Var} {b : Bool} : v.type = .bool → Allowed online v (.bool b) { v with int := if b then 1 else 0 }
  | int {v : Var} {n : Nat} : v.type = .int → (v.flags.testBit 5 = true → n ≠ 0) → Allowed online v (.int n) { v with int := n }
  | string {v : Var} {s : Bytes} : v.type = .string → Allowed online v (.string s) { v with str := s }

/-- The variable exists, is not secret and may be changed in this phase. -/
def Open (online : Bool) (v : Var) : Prop :=
  v.flags.testBit 3 = false ∧ (if online then v.flags.testBit 1 = true else v.flags.testBit 0 = true)

/-- `b` is `a` with the first variable called `name` replaced by `w`. -/
def Changed (a b : List Var) (name : Bytes) (w : Var) : Prop :=
  ∃ l v r, a = l ++ v :: r ∧ b = l ++ w :: r ∧ v.name = name ∧ ∀ u ∈ l, u.name ≠ name

/-- SET does what is asked if it is allowed, and otherwise fails and changes
nothing. -/
def Obeys (online : Bool) (save : Res Unit) (cfg : List Var) (name : Bytes) (value : SetValue) : Prop :=
  (∀ v w, named cfg name = some v → Open online v → Allowed online v value w →
    (execute_set online save cfg name value).1 = .ok () ∧
      Changed cfg (execute_set online save cfg name value).2 name w) ∧
  ((¬ ∃ v w, named cfg name = some v ∧ Open online v ∧ Allowed online v value w) →
    (∃ m, (execute_set online save cfg name value).1 = .err m) ∧
      (execute_set online save cfg name value).2 = cfg)

/-- A SET that fails changes nothing. -/
def FailsClean (online : Bool) (save : Res Unit) (cfg : List Var) (name : Bytes) (value : SetValue) : Prop :=
  (∀ m, (execute_set online save cfg name value).1 = .err m → (execute_set online save cfg name value).2 = cfg)

/-- C37 in full: `save` is the outcome of writing the configuration file, which
can fail. -/
def Full : Prop :=
  ∀ online save cfg name value,
    (save = .ok () → Obeys online save cfg name value) ∧
    (∀ m, save = .err m → FailsClean online save cfg name value)

end Verif.C37
