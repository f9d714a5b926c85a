import Verif.Model.Mapping

/-!
Model of the operations on the partition map in engine/engine/op.c and
engine/engine/engine.c: automatic and explicit creation, lookup, range
operations, removal.  Partitions are identified by a creation number; locks,
storages and files are modelled elsewhere.
-/
namespace Verif

/-- The partition map of `struct Engine` (engine/engine/engine.h) and the
number of the next partition (the address `ref_allocate` returns). -/
structure Ranges where
  map : Mapping Nat
  next : Nat
deriving Repr, DecidableEq

namespace Ranges

/-- An engine without partitions. -/
def init : Ranges := ⟨Mapping.init, 0⟩

/-- engine_create, op.c:24-66, the part on the mapping (lines 28-43). -/
def create (e : Ranges) (min max : Nat) : Res Ranges :=
  (e.map.add ⟨min, max, e.next⟩).bind fun m => .ok ⟨m, e.next + 1⟩

/-- The loop of engine_fill_nolock, op.c:88-121: the gaps between `min` and
`max`.  `fuel` bounds the number of slices visited. -/
def gaps {β : Type} : Nat → Option (Rb.Loc (Slice β)) → Nat → Nat → Res (List (Nat × Nat))
  | 0, _, _, _ => .ub "engine_fill: fuel"
  | fuel + 1, slice, min, max =>
    if min ≤ max then
      match slice with
      | some s =>
        if min < s.v.min then
          let gap := (min, if max < s.v.min then max else s.v.min - 1)
          (gaps fuel (Rb.next s) (wrapU64 (s.v.max + 1 : Nat)) max).bind fun gs => .ok (gap :: gs)
        else if Mapping.sliceIn s.v min then
          gaps fuel (Rb.next s) (wrapU64 (s.v.max + 1 : Nat)) max
        else gaps fuel (Rb.next s) min max
      | none => .ok [(min, max)]
    else .ok []

/-- The loop of op.c:123-127. -/
def createAll : Ranges → List (Nat × Nat) → Res Ranges
  | e, [] => .ok e
  | e, (min, max) :: gs => (e.create min max).bind fun e' => createAll e' gs

/-- engine_fill_nolock, op.c:68-130. -/
def fill (e : Ranges) (min max : Nat) : Res Ranges :=
  if min > max then .err "fill: invalid partition interval"
  else if e.map.count = 0 then e.create min max
  else
    (e.map.seek min).bind fun s =>
    (gaps (e.map.count + 1) (some s) min max).bind fun gs =>
    e.createAll gs

/-- config_interval_of, runtime/config/global.h:61-65. -/
def intervalOf (interval id : Nat) : Nat := id - id % interval

/-- The lookup of engine_lock without creation, engine.c:129-137. -/
def lookup (e : Ranges) (id : Nat) : Res (Option (Slice Nat)) :=
  match e.map.last with
  | some h =>
    if Mapping.sliceIn h.v id then .ok (some h.v)
    else (e.map.match id).bind fun r => .ok (r.map (·.v))
  | none => (e.map.match id).bind fun r => .ok (r.map (·.v))

/-- engine_lock with `create_if_not_exists`, engine.c:127-157: the engine and
the partition of the id. -/
def lock (interval : Nat) (e : Ranges) (id : Nat) : Res (Ranges × Slice Nat) :=
  (e.lookup id).bind fun
    | some s => .ok (e, s)
    | none =>
      let min := intervalOf interval id
      let max := wrapU64 (wrapU64 ((min : Int) + interval) - 1)
      (e.fill min max).bind fun e' =>
      (e'.map.match id).bind fun
        | some s => .ok (e', s.v)
        | none => .abort "engine_lock: slice"

/-- engine_lock with `gte`, engine.c:120-126. -/
def lockGte (e : Ranges) (id : Nat) : Res (Option (Slice Nat)) :=
  (e.map.gte id).bind fun r => .ok (r.map (·.v))

/-- engine_foreach, op.c:145-162: the start of the partition found and the next
position. -/
def foreach (e : Ranges) (min max : Nat) : Res (Option (Nat × Nat)) :=
  (e.lockGte min).bind fun
    | none => .ok none
    | some s =>
      if s.min ≥ min ∧ s.max ≤ max then .ok (some (s.min, wrapU64 (s.max + 1 : Nat)))
      else .ok none

/-- The loop of the range commands, e.g. engine_drop_range, op.c:317-323:
the engine and the partitions `act` was applied to; `none` when the loop did
not end within `fuel` rounds. -/
def range (act : Ranges → Nat → Res Ranges) :
    Nat → Ranges → Nat → Nat → Res (Option (Ranges × List Nat))
  | 0, _, _, _ => .ok none
  | fuel + 1, e, min, max =>
    (e.foreach min max).bind fun
      | none => .ok (some (e, []))
      | some (m, next) =>
        (act e m).bind fun e' =>
        (range act fuel e' next max).bind fun
          | none => .ok none
          | some (e'', ms) => .ok (some (e'', m :: ms))

/-- engine_drop, op.c:290-315 (with engine_drop_reference, 239-288): the
partition that covers the id is removed from the map; `if_exists` is false. -/
def drop (e : Ranges) (id : Nat) : Res Ranges :=
  (e.lookup id).bind fun
    | none => .err "drop: partition not found"
    | some _ =>
      (e.map.match id).bind fun
        | none => .ok e
        | some x => (e.map.removeAt x).bind fun m => .ok ⟨m, e.next⟩

end Ranges
end Verif
