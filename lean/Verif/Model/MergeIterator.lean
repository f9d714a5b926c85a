import Verif.Model.Event

/-!
Model of engine/io/iterator.h and engine/io/merge_iterator.h.
-/
namespace Verif

/-- `struct Iterator`, engine/io/iterator.h:20-32: the virtual methods of a
source.  `ι` is the state behind the pointer; `at` returns NULL (`none`) at the
end.  `has` and `close` are not called by the merge. -/
structure IterFns (ι : Type) where
  at' : ι → Option Event
  next : ι → Res ι

/-- `struct MergeIteratorRef`, engine/io/merge_iterator.h:19-23. -/
structure MergeRef (ι : Type) where
  it : ι
  advance : Bool

/-- `struct MergeIterator`, merge_iterator.h:25-32.  `current` is the position
in `list` of the source that `current` points to; `list_count` is the length of
`list`; the comparator is a constant. -/
structure Merge (ι : Type) where
  list : List (MergeRef ι)
  current : Option Nat

namespace Merge
variable {ι : Type}

/-- merge_iterator_init and merge_iterator_reset, merge_iterator.h:120-143. -/
def init : Merge ι := ⟨[], none⟩

/-- merge_iterator_add, merge_iterator.h:34-44. -/
def add (m : Merge ι) (source : ι) : Merge ι :=
  { m with list := m.list ++ [⟨source, false⟩] }

/-- merge_iterator_has, merge_iterator.h:53-57. -/
def has (m : Merge ι) : Bool := m.current.isSome

/-- merge_iterator_at, merge_iterator.h:59-65. -/
def at' (f : IterFns ι) (m : Merge ι) : Res (Option Event) :=
  match m.current with
  | none => .ok none
  | some i =>
    match m.list[i]? with
    | none => .ub "merge_iterator_at: dangling current"
    | some r => .ok (f.at' r.it)

/-- The first loop of merge_iterator_next, merge_iterator.h:71-79. -/
def advanceAll (f : IterFns ι) : List (MergeRef ι) → Res (List (MergeRef ι))
  | [] => .ok []
  | r :: rs =>
    (if r.advance then (f.next r.it).bind fun it => .ok ⟨it, false⟩ else .ok r).bind fun r' =>
    (advanceAll f rs).bind fun rs' => .ok (r' :: rs')

/-- `list[i].advance = false` for all i, merge_iterator.h:104-105. -/
def clear (l : List (MergeRef ι)) : List (MergeRef ι) := l.map fun r => { r with advance := false }

/-- The second loop of merge_iterator_next, merge_iterator.h:84-110.  `done` are
the references before `pos` and `todo` the others; the first argument is
`list_count - pos`.  `min` is the position and row of the smallest source so
far. -/
def pick (mc : MemCmp) (f : IterFns ι) :
    Nat → List (MergeRef ι) → List (MergeRef ι) → Option (Nat × Event) →
    List (MergeRef ι) × Option (Nat × Event)
  | 0, done, todo, min => (done ++ todo, min)
  | _ + 1, done, [], min => (done, min)
  | n + 1, done, r :: todo, min =>
    match f.at' r.it with
    | none => pick mc f n (done ++ [r]) todo min
    | some row =>
      match min with
      | none => pick mc f n (done ++ [{ r with advance := true }]) todo (some (done.length, row))
      | some (i, m) =>
        let rc := compare mc m row
        if rc = 0 then pick mc f n (done ++ [{ r with advance := true }]) todo (some (i, m))
        else if rc > 0 then
          pick mc f n (clear done ++ [{ r with advance := true }]) (clear todo)
            (some (done.length, row))
        else pick mc f n (done ++ [r]) todo (some (i, m))

/-- merge_iterator_next, merge_iterator.h:67-112. -/
def next (mc : MemCmp) (f : IterFns ι) (m : Merge ι) : Res (Merge ι) :=
  (advanceAll f m.list).bind fun list =>
  let (list, min) := pick mc f list.length [] list none
  .ok ⟨list, min.map (·.1)⟩

/-- merge_iterator_open, merge_iterator.h:46-51: the comparator is a constant,
so only the call of `next` is left. -/
def openIt (mc : MemCmp) (f : IterFns ι) (m : Merge ι) : Res (Merge ι) := next mc f m

/-- `while (has) { at; next }`, the loop of every caller (e.g. merger_write,
engine/io/merger.c:60-72).  `fuel` bounds the number of rounds. -/
def drain (mc : MemCmp) (f : IterFns ι) : Nat → Merge ι → Res (List Event)
  | 0, m => if m.has then .ub "fuel" else .ok []
  | n + 1, m =>
    if m.has then
      (m.at' f).bind fun e =>
      match e with
      | none => .ub "merge_iterator: has but no event"
      | some e =>
        (next mc f m).bind fun m' =>
        (drain mc f n m').bind fun es => .ok (e :: es)
    else .ok []

end Merge
end Verif
