import Verif.Model.Basic
import Verif.Model.Bytes

/-! The functions of the library as an application sees them: main/api/monotone.c, with
the runtime of a thread (runtime/runtime/runtime.h, error.h, exception.h).

Simplified: what main_start, main_execute, engine_write and the functions of
EngineCursor do is given to the model as a `Body`; calls are steps, each in one
thread (what two calls do to each other inside the engine is C71 to C74).  main_init,
main_stop, main_free and engine_cursor_close do not throw (they free memory, close
files without looking at the answer and unlock), so they are not seen here.  Guards
are C50. -/
namespace Verif.Api

/-- What the code between `enter` and `leave` does: the errors that were thrown and
caught again further inside (op.c:664-717 in the command SERVICE), and how it ends. -/
inductive Out where
  | done (rc : Int)
  | thrown (msg : Bytes)
deriving DecidableEq

structure Body where
  caught : List Bytes := []
  out : Out
deriving DecidableEq

/-- `struct Runtime`, runtime.h:27-32, one for each thread: the text of the error up to
its zero byte, and `triggered` of the exceptions that are entered, the last one first
(exception.h:29-39).  `context` is the environment it points into. -/
structure Runtime where
  text : Bytes := []
  frames : List Bool := []
  context : Option Nat := none
deriving DecidableEq

/-- runtime_init, runtime.c:18-24, as monotone_enter calls it, monotone.c:38-42. -/
def Runtime.init (_ : Runtime) (env : Nat) : Runtime := ⟨[], [], some env⟩

/-- exception_mgr_enter, exception.h:71-78. -/
def Runtime.enter (r : Runtime) : Runtime := { r with frames := false :: r.frames }

/-- error_throw_as and exception_mgr_throw, error.h:51-76, exception.h:60-69: `text` has
256 bytes. -/
def Runtime.throw (r : Runtime) (msg : Bytes) : Res Runtime :=
  match r.frames with
  | [] => .abort "exception_mgr_throw: current"
  | _ :: fs => .ok { r with text := msg.take 255, frames := true :: fs }

/-- exception_mgr_leave, exception.h:80-85. -/
def Runtime.leave (r : Runtime) : Res (Runtime × Bool) :=
  match r.frames with
  | [] => .ub "leave without enter"
  | f :: fs => .ok ({ r with frames := fs }, f)

/-- The errors that are caught inside. -/
def Runtime.caught (r : Runtime) : List Bytes → Res Runtime
  | [] => .ok r
  | m :: ms => (r.enter.throw m).bind fun r => r.leave.bind fun (r, _) => r.caught ms

/-- `if (enter(&e)) { ... } if (leave(&e))`: what the last one says, and the value that
was computed, if nothing was thrown. -/
def Runtime.guarded (r : Runtime) (b : Body) : Res (Runtime × Option Int) :=
  (r.enter.caught b.caught).bind fun r =>
    match b.out with
    | .done rc => r.leave.bind fun (r, t) => .ok (r, if t then none else some rc)
    | .thrown m => (r.throw m).bind fun r => r.leave.bind fun (r, t) => .ok (r, if t then none else some 0)

/-- MONOTONE_OBJ, MONOTONE_OBJ_CURSOR and MONOTONE_OBJ_FREED, monotone.c:18-23. -/
def OBJ : Nat := 0x3fb15941
def OBJ_CURSOR : Nat := 0x143BAF02
def OBJ_FREED : Nat := 0x0000dead

/-- The memory of a handle, monotone.c:25-36.  `born` counts the calls of malloc, to
tell an environment from a later one at the same address; of a cursor it is the one of
its environment. -/
structure Cell where
  type : Nat
  env : Nat := 0
  born : Nat
deriving DecidableEq

/-- The memory that is allocated for handles, and the threads. -/
structure World where
  memory : Nat → Option Cell
  runtime : Nat → Runtime
  births : Nat

def World.put (w : World) (p : Nat) (c : Option Cell) : World :=
  { w with memory := fun q => if q = p then c else w.memory q }

def World.set (w : World) (t : Nat) (r : Runtime) : World :=
  { w with runtime := fun u => if u = t then r else w.runtime u }

/-- Nothing was called. -/
def start : World := ⟨fun _ => none, fun _ => {}, 0⟩

/-- What a call returns: an `int`, a pointer (none for NULL), a text or nothing. -/
inductive Ret where
  | rc (v : Int)
  | handle (p : Option Nat)
  | text (t : Bytes)
  | nothing
deriving DecidableEq

/-- The calls.  `mem` is what malloc returns; address 0 is NULL. -/
inductive Call where
  | init (mem : Option Nat) (b : Body)
  | open_ (h : Nat) (b : Body)
  | execute (h : Nat) (b : Body)
  | write (h : Nat) (b : Body)
  | cursor (h : Nat) (mem : Option Nat) (b : Body)
  | read (c : Nat) (b : Body)
  | next (c : Nat) (b : Body)
  | free (p : Nat)
  | error
deriving DecidableEq

/-- malloc does not return memory that is in use. -/
def notNow {α} : Res α := .err "not now"

/-- An environment that a pointer leads to. -/
def World.env (w : World) (h : Nat) : Res Cell :=
  match w.memory h with
  | none => .ub "memory that is not allocated"
  | some c => if c.type = OBJ then .ok c else .ub "an object of another type"

/-- A cursor that a pointer leads to; its environment is used as well. -/
def World.cursor (w : World) (p : Nat) : Res Cell :=
  match w.memory p with
  | none => .ub "memory that is not allocated"
  | some c =>
    if c.type = OBJ_CURSOR then
      (w.env c.env).bind fun e =>
        if e.born = c.born then .ok c else .ub "the environment of the cursor was freed"
    else .ub "an object of another type"

/-- monotone_open, monotone_execute and monotone_write, monotone.c:122-165, and the
rest of monotone_read and monotone_next, monotone.c:212-261. -/
def guardedCall (w : World) (t env : Nat) (b : Body) : Res (World × Ret) :=
  (((w.runtime t).init env).guarded b).bind fun (r, v) =>
    .ok (w.set t r, .rc (match v with | some rc => rc | none => -1))

/-- One call, by the thread `t`. -/
def step (w : World) (t : Nat) : Call → Res (World × Ret)
  -- monotone_init, monotone.c:44-64
  | .init none _ => .ok (w, .handle none)
  | .init (some p) b =>
    if p = 0 ∨ w.memory p ≠ none then notNow else
    let w := { w.put p (some ⟨OBJ, 0, w.births⟩) with births := w.births + 1 }
    (((w.runtime t).init p).guarded b).bind fun (r, v) =>
      match v with
      | some _ => .ok (w.set t r, .handle (some p))
      | none => .ok ((w.set t r).put p none, .handle none)
  | .open_ h b => (w.env h).bind fun _ => guardedCall w t h b
  | .execute h b => (w.env h).bind fun _ => guardedCall w t h b
  | .write h b => (w.env h).bind fun _ => guardedCall w t h b
  -- monotone_cursor, monotone.c:167-210
  | .cursor h mem b =>
    (w.env h).bind fun e =>
    let r := (w.runtime t).init h
    match mem with
    | none => .ok (w.set t r, .handle none)
    | some p =>
      if p = 0 ∨ w.memory p ≠ none then notNow else
      let w := w.put p (some ⟨OBJ_CURSOR, h, e.born⟩)
      (r.guarded b).bind fun (r, v) =>
        match v with
        | some _ => .ok (w.set t r, .handle (some p))
        | none =>
          r.enter.leave.bind fun (r, _) => .ok ((w.set t r).put p none, .handle none)
  | .read c b => (w.cursor c).bind fun k => guardedCall w t k.env b
  | .next c b => (w.cursor c).bind fun k => guardedCall w t k.env b
  -- monotone_free, monotone.c:66-113
  | .free p =>
    match w.memory p with
    | none => .ub "memory that is not allocated"
    | some c =>
      if c.type = OBJ then
        ((w.runtime t).init p).enter.leave.bind fun (r, _) => .ok ((w.set t r).put p none, .nothing)
      else if c.type = OBJ_CURSOR then
        (w.cursor p).bind fun k =>
        ((w.runtime t).init k.env).enter.leave.bind fun (r, _) =>
          .ok ((w.set t r).put p none, .nothing)
      else if c.type = OBJ_FREED then .abort "attempt to use freed object"
      else .abort "unexpected object type"
  -- monotone_error, monotone.c:115-120
  | .error => .ok (w, .text (w.runtime t).text)

end Verif.Api
