import Verif.Model.Durable

/-! Serial ids: events written without an id are given the next one
(engine/engine/write.c:91-93, runtime/config/global.h:79-102), and the next one is
determined at start from the last partition (engine_set_serial,
engine/engine/engine.c:78-106).  Built on the model of the database as a whole. -/
namespace Verif.Serial
open Dur

/-- The database and the variable `ssn`, runtime/config/config.c:112, which is not
saved. -/
structure State where
  db : Db
  ssn : Nat

/-- `EventArg`, engine/io/event.h: an event, and whether it has no id of its own
(`id == UINT64_MAX` in serial mode, write.c:92). -/
structure Arg where
  serial : Bool
  event : Event
deriving DecidableEq

/-- write.c:83-109 for the ids: config_ssn_next returns the value and increments
it (atomic_u64_inc, global.h:92-96 and runtime/config/var.h:95-99). -/
def assign : Nat → List Arg → List Event × Nat
  | ssn, [] => ([], ssn)
  | ssn, a :: l =>
    if a.serial then
      let (es, s) := assign (wrapU64 (ssn + 1 : Nat)) l
      ({ a.event with id := ssn } :: es, s)
    else
      let (es, s) := assign ssn l
      (a.event :: es, s)

/-- The ids given to the events of a batch that have none. -/
def given : Nat → List Arg → List Nat
  | _, [] => []
  | ssn, a :: l => if a.serial then ssn :: given (wrapU64 (ssn + 1 : Nat)) l else given ssn l

/-- A batch that fails (and is rolled back, write.c:24-43; the tables are as
before, C09) leaves the partitions it created, engine_lock,
engine/engine/engine.c:139-153. -/
def touch (iv : Nat) (db : Db) (e : Event) : Db :=
  let p := partOf iv e.id
  let s := db.slots p
  match s.part with
  | some _ => db
  | none => db.set p { s with part := some {} }

/-- The largest id of a table: memtable_max, engine/io/memtable.c:315-323, and
index_max, engine/io/index.h:90-94, of files with at least one region. -/
def tblMax : Table → Option Nat
  | [] => none
  | e :: t =>
    match tblMax t with
    | none => some e.id
    | some m => some (if e.id > m then e.id else m)

/-- mapping_max: the partition with the largest minimum. -/
def lastOf (db : Db) : List Nat → Option (Nat × Part)
  | [] => none
  | p :: l =>
    match (db.slots p).part, lastOf db l with
    | none, r => r
    | some x, none => some (p, x)
    | some x, some (q, y) => if p > q then some (p, x) else some (q, y)

/-- engine_set_serial, engine.c:78-106, at start, when `ssn` is 0. -/
def setSerial (db : Db) : Nat :=
  match lastOf db db.known with
  | none => 0
  | some (_, x) =>
    let file : Option Nat := match x.file with
      | none => none
      | some f => tblMax f.tbl
    let serial := match file with
      | none => 0
      | some m => m
    match tblMax x.act.tbl with
    | some m =>
      if m ≥ serial then wrapU64 (m + 1 : Nat)
      else wrapU64 (serial + 1 : Nat)
    | none =>
      match file with
      | none => 0
      | some m => wrapU64 (m + 1 : Nat)

inductive Op where
  /-- engine_write -/
  | write (args : List Arg)
  /-- engine_write that fails after these events -/
  | refused (args : List Arg)
  /-- anything else, restarts included -/
  | other (o : Dur.Op)
deriving DecidableEq

/-- One step; also the ids given to events that were written. -/
def step (iv : Nat) (s : State) : Op → Res (State × List Nat)
  | .write args =>
    match s.db.pending with
    | some _ => .ok (s, [])
    | none => .ok ({ db := Dur.log iv s.db (assign s.ssn args).1, ssn := (assign s.ssn args).2 }, given s.ssn args)
  | .refused args =>
    match s.db.pending with
    | some _ => .ok (s, [])
    | none => .ok ({ db := (assign s.ssn args).1.foldl (touch iv) s.db, ssn := (assign s.ssn args).2 }, [])
  | .other .crash => (Dur.restart iv s.db).bind fun db => .ok ({ db := db, ssn := setSerial db }, [])
  | .other o => (Dur.step iv s.db o).bind fun db => .ok ({ s with db := db }, [])

/-- A history, and all the ids given. -/
def run (iv : Nat) : State → List Nat → List Op → Res (State × List Nat)
  | s, ids, [] => .ok (s, ids)
  | s, ids, op :: ops => (step iv s op).bind fun r => run iv r.1 (ids ++ r.2) ops

/-- A new database. -/
def init : State := { db := Dur.init, ssn := 0 }

end Verif.Serial
