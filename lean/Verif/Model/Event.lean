import Verif.Model.Basic
import Verif.Spec.Key

/-! Model of engine/io/event.h, engine/io/comparator.h and the comparisons
built on it. -/
namespace Verif

/-- `struct Event`, engine/io/event.h:34-41, as a value: `data` is split into
the key and value bytes (event_key/event_value, event.h:55-65).  `key_size` and
`data_size` are the lengths (`data_size = key + value`, event.h:73; the 32-bit
width of `data_size` and the 8-bit width of `key_size` are modelled in the byte
encodings). -/
structure Event where
  id : Nat
  flags : Nat
  key : List UInt8
  value : List UInt8
deriving Repr, DecidableEq, Inhabited

namespace Event

/-- event_is_delete, engine/io/event.h:43-47: `flags & MN_DELETE`, MN_DELETE = 1
(event.h:19-22). -/
def isDelete (e : Event) : Bool := e.flags % 2 == 1

/-- The pair that identifies an event. -/
def pair (e : Event) : Nat × List UInt8 := (e.id, e.key)

end Event

/-- A `memcmp` that meets C11 7.24.4.1: on two regions of equal length the sign
of the result is the order of the first differing bytes (as unsigned char), and
the result is an `int`. -/
structure MemCmp where
  fn : List UInt8 → List UInt8 → Int
  sign_eq : ∀ a b, a.length = b.length → (fn a b).sign = Spec.lexCmp a b
  range : ∀ a b, -2147483648 ≤ fn a b ∧ fn a b < 2147483648

/-- compare, engine/io/comparator.h:29-48.  `a->id - b->id` is computed in
`uint64_t` and stored in `int64_t`. -/
def compare (mc : MemCmp) (a b : Event) : Int :=
  let diff := wrapS64 (wrapU64 ((a.id : Int) - b.id))
  if diff ≠ 0 then diff
  else if a.key.length = 0 ∧ b.key.length = 0 then 0
  else
    let size := if a.key.length < b.key.length then a.key.length else b.key.length
    let rc := mc.fn (a.key.take size) (b.key.take size)
    if rc = 0 then (a.key.length : Int) - b.key.length else rc

/-- The comparison result assigned to an `int`: memtable_compare
(engine/io/memtable.c:56-60), the loop of memtable_search (memtable.c:128) and
region_iterator_compare (engine/io/region_iterator.h:40-45). -/
def compareInt (mc : MemCmp) (a b : Event) : Int := wrapS32 (compare mc a b)

/-- compare_u64, runtime/runtime/misc.h:16-20: `(int64_t)a - (int64_t)b`.
Overflow of the signed subtraction is undefined. -/
def compareU64 (a b : Nat) : Res Int :=
  let d := toS64 a - toS64 b
  if -9223372036854775808 ≤ d ∧ d < 9223372036854775808 then .ok d
  else .ub "compare_u64: signed overflow"

end Verif
