import Verif.Model.Config
import Verif.Spec.C34

/-! C35: configuration text round trip.  Values are the trees of C34. -/
namespace Verif.C35
open Data Config C34

mutual
/-- Nesting depth of a value. -/
def depth : Val → Nat
  | .arr l => depthAll l + 1
  | .map l => depthMap l + 1
  | _ => 1
def depthAll : Vals → Nat
  | .nil => 0
  | .cons v l => max (depth v) (depthAll l)
def depthMap : Maps → Nat
  | .nil => 0
  | .cons _ v l => max 1 (max (depth v) (depthMap l))
end

/-- What a data variable holds; not set counts as null, as in cloud_mgr_open,
storage_mgr_open and pipeline_open. -/
def Holds (x : Val) (s : Bytes) : Prop := (s = [] ∧ x = .null) ∨ Encodes x s

/-- Two variables with the same value. -/
def Same (v w : Var) : Prop :=
  v.name = w.name ∧ v.type = w.type ∧ v.flags = w.flags ∧
  match v.type with
  | .bool => v.int = w.int
  | .int => v.int = w.int
  | .string => v.str = w.str
  | .data => ∃ x, Holds x v.str ∧ Holds x w.str

/-- The variables of config_prepare with any values. -/
def Table (cfg : List Var) : Prop :=
  cfg.map (fun v => (v.name, v.type, v.flags)) = prepare.map (fun v => (v.name, v.type, v.flags))

/-- Is the variable saved? -/
def Saved (v : Var) : Prop := v.is 16 = false

/-- A value that the C variable can hold; `ok` restricts data, `str` strings and
`int` integers.  The C stack has room for `d` nested calls. -/
def Valid (d : Nat) (str : Bytes → Prop) (int : Int → Prop) (ok : Val → Prop) (v : Var) : Prop :=
  match v.type with
  | .bool => v.int = 0 ∨ v.int = 1
  | .int => v.int < 18446744073709551616 ∧ int (toS64 v.int)
  | .string => v.str.length + 5 < 2147483648 ∧ str v.str
  | .data => ∃ x, Holds x v.str ∧ Fits (fun _ => True) x ∧ ok x ∧ depth x + 1 ≤ d

/-- Saving `cfg` and opening the file over the configuration `fresh` restores
every saved variable and leaves the others as they were in `fresh`. -/
def Restores (fp : Bytes → Option (Nat × Nat)) (fmt : Nat → Bytes) (d : Nat) (cfg fresh : List Var) : Prop :=
  ∃ text, saveText fmt d cfg = .ok text ∧ ∀ old, ∃ cfg',
    open_ fp fmt d fresh ⟨some text, old⟩ = .ok (cfg', ⟨some text, old⟩) ∧ Table cfg' ∧
    ∀ name v, find cfg name = some v →
      ∃ w, find cfg' name = some w ∧ (Saved v → Same v w) ∧ (¬ Saved v → find fresh name = some w)

/-- C35 in full: any strings, 64-bit integers, nested values. -/
def Full : Prop :=
  ∀ fp fmt d cfg fresh, 2 ≤ d → Table cfg → Table fresh →
    (∀ v ∈ cfg, Saved v → Valid d (fun _ => True) (fun _ => True) (fun _ => True) v) →
    Restores fp fmt d cfg fresh

/-- A string the reader can delimit: every quote in it follows a backslash that
is not itself escaped, and it does not end inside such an escape. -/
def delimited : Bool → Bytes → Bool
  | slash, [] => !slash
  | slash, b :: r =>
    if slash then delimited false r
    else if b = 92 then delimited true r
    else if b = 34 then false
    else delimited false r

/-- Integers whose text can be read without an overflow of
`(value * 10) + symbol` (json.c:236). -/
def SmallInt (i : Int) : Prop := -9223372036854775759 ≤ i ∧ i ≤ 9223372036854775759

mutual
/-- The values that survive: no reals, strings that can be delimited, integers
away from the ends of the 64-bit range. -/
def Plain : Val → Prop
  | .null => True
  | .bool _ => True
  | .int i => SmallInt i
  | .real _ => False
  | .str s => s.length + 5 < 2147483648 ∧ delimited false s = true
  | .arr l => l.len < 2147483648 ∧ PlainAll l
  | .map l => l.len < 2147483648 ∧ PlainMap l
def PlainAll : Vals → Prop
  | .nil => True
  | .cons v l => Plain v ∧ PlainAll l
def PlainMap : Maps → Prop
  | .nil => True
  | .cons k v l => (k.length + 5 < 2147483648 ∧ delimited false k = true) ∧ Plain v ∧ PlainMap l
end

end Verif.C35
