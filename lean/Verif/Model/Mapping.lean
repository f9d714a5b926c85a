import Verif.Model.Rbtree
import Verif.Model.Event

/-! Model of engine/io/mapping.h: the index of partitions by their id range. -/
namespace Verif

/-- `struct Slice`, engine/io/mapping.h:19-24; `val` stands for the object the
slice is embedded in (`Ref`, engine/engine/ref.h). -/
structure Slice (β : Type) where
  min : Nat
  max : Nat
  val : β
deriving Repr, DecidableEq, Inhabited

/-- `struct Mapping`, engine/io/mapping.h:26-30. -/
structure Mapping (β : Type) where
  tree : Rb.Tree (Slice β)
  count : Nat
deriving Repr, DecidableEq

namespace Mapping
variable {β : Type}

/-- mapping_init, mapping.h:46-51. -/
def init : Mapping β := ⟨.nil, 0⟩

/-- slice_in, mapping.h:40-44. -/
def sliceIn (s : Slice β) (id : Nat) : Bool := s.min ≤ id && id ≤ s.max

/-- mapping_min, mapping.h:59-66. -/
def first (m : Mapping β) : Option (Rb.Loc (Slice β)) :=
  if m.count = 0 then none else Rb.min m.tree

/-- mapping_max, mapping.h:68-75. -/
def last (m : Mapping β) : Option (Rb.Loc (Slice β)) :=
  if m.count = 0 then none else Rb.max m.tree

/-- mapping_find, mapping.h:77-78 (rbtree_get, rbtree.h:39-65): the search
itself uses the 64-bit result, the returned value is converted to `int`. -/
def find (m : Mapping β) (key : Nat) : Res (Option (Int × Rb.Loc (Slice β))) :=
  (Rb.get (fun s => compareU64 s.min key) m.tree []).bind fun
    | none => .ok none
    | some (rc, n) => .ok (some (wrapS32 rc, n))

/-- mapping_add, mapping.h:80-90. -/
def add (m : Mapping β) (s : Slice β) : Res (Mapping β) :=
  (m.find s.min).bind fun
    | none => (Rb.set none 0 s).bind fun t => .ok ⟨t, m.count + 1⟩
    | some (rc, n) =>
      if rc = 0 then .abort "mapping_add: assert(0)"
      else (Rb.set (some n) rc s).bind fun t => .ok ⟨t, m.count + 1⟩

/-- mapping_remove, mapping.h:92-98, of the slice at a node of the tree. -/
def removeAt (m : Mapping β) (x : Rb.Loc (Slice β)) : Res (Mapping β) :=
  (Rb.remove x).bind fun t =>
    if m.count = 0 then .abort "mapping_remove: tree_count >= 0"
    else .ok ⟨t, m.count - 1⟩

/-- mapping_remove given the slice pointer: `is` recognises the slice. -/
def remove (m : Mapping β) (is : Slice β → Bool) : Res (Mapping β) :=
  match Rb.locate is m.tree [] with
  | none => .ub "mapping_remove: slice is not linked"
  | some x => m.removeAt x

/-- mapping_seek, mapping.h:124-137. -/
def seek (m : Mapping β) (id : Nat) : Res (Rb.Loc (Slice β)) :=
  (m.find id).bind fun
    | none => .abort "mapping_seek: node != NULL"
    | some (rc, n) =>
      if rc > 0 then
        match Rb.prev n with
        | some p => .ok p
        | none => .ok n
      else .ok n

/-- mapping_gte, mapping.h:139-148. -/
def gte (m : Mapping β) (id : Nat) : Res (Option (Rb.Loc (Slice β))) :=
  if m.count = 0 then .ok none
  else (m.seek id).bind fun s =>
    if s.v.max < id then .ok (Rb.next s) else .ok (some s)

/-- mapping_match, mapping.h:150-160. -/
def «match» (m : Mapping β) (id : Nat) : Res (Option (Rb.Loc (Slice β))) :=
  if m.count = 0 then .ok none
  else (m.seek id).bind fun s =>
    if sliceIn s.v id then .ok (some s) else .ok none

end Mapping
end Verif
