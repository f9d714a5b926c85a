import Verif.Model.Basic

/-!
Cleanup handlers and exceptions: runtime/runtime/exception.h and
runtime/runtime/guard.h.

A `Guard` is a local variable of the C program; here it is known by a number
given out in order of creation (addresses of guards that went out of scope are
not reused).  The `cleanup` attribute of gcc runs `guard_runner` for the guards
of a block, last declared first, when the block is left normally; `longjmp` skips
that.  Cleanup functions are observed by a number and do not throw themselves.
-/
namespace Verif

/-- struct Guard, exception.h:22-27. -/
structure GuardS where
  fn : Option Nat
  prev : Option Nat
deriving Repr, DecidableEq

/-- struct Exception, exception.h:29-35, without the jump buffer. -/
structure ExcS where
  triggered : Bool
  stack : Option Nat
deriving Repr, DecidableEq

/-- What can be observed: ordinary work, and cleanup functions run. -/
inductive GObs where
  | did (i : Nat)
  | ran (f : Nat)
deriving Repr, DecidableEq

/-- The guards, the exceptions entered and not left (innermost first, the list
linked by `prev` from `exception_mgr.last`), and the observations so far. -/
structure Exc where
  guards : Nat → GuardS
  next : Nat
  frames : List ExcS
  log : List GObs

/-- Programs: the ways in which the code of /repo uses guards and exceptions. -/
inductive GProg where
  | done
  | act (i : Nat) (k : GProg)
  /-- `guard(f, arg)`: a local Guard of the current block. -/
  | guard (f : Nat) (k : GProg)
  | unguard (k : GProg)
  /-- `error(...)` or `rethrow()`. -/
  | throw
  /-- A call or a nested block. -/
  | block (b k : GProg)
  /-- `if (enter(&e)) { b } if (leave(&e)) { h }`. -/
  | tryCatch (b h k : GProg)
deriving Repr, DecidableEq

namespace Exc

def setGuard (s : Exc) (a : Nat) (g : GuardS) : Exc := { s with guards := fun b => if b = a then g else s.guards b }
def say (s : Exc) (o : GObs) : Exc := { s with log := s.log ++ [o] }

/-- exception_mgr_execute_guards, exception.h:48-58.  `fuel` bounds the length
of the list; running out of it would mean a cyclic list. -/
def execute_guards (s : Exc) : Nat → Option Nat → Res Exc
  | _, none => .ok s
  | 0, some _ => .ub "cyclic guard list"
  | fuel + 1, some a =>
    match (s.guards a).fn with
    | none => execute_guards s fuel (s.guards a).prev
    | some f => execute_guards ((s.say (.ran f)).setGuard a { s.guards a with fn := none }) fuel (s.guards a).prev

/-- exception_mgr_throw, exception.h:60-69, up to the longjmp. -/
def throw (s : Exc) : Res Exc :=
  match s.frames with
  | [] => .abort "exception_mgr_throw: current"
  | e :: es =>
    (s.execute_guards (s.next + 1) e.stack).bind fun s =>
      .ok { s with frames := { e with stack := none, triggered := true } :: es }

/-- exception_mgr_enter, exception.h:71-78. -/
def enter (s : Exc) : Exc := { s with frames := ⟨false, none⟩ :: s.frames }

/-- exception_mgr_leave, exception.h:80-85: the new state and `triggered`. -/
def leave (s : Exc) : Res (Exc × Bool) :=
  match s.frames with
  | [] => .ub "leave without enter"
  | e :: es => .ok ({ s with frames := es }, e.triggered)

/-- guard_pop, guard.h:16-23. -/
def guard_pop (s : Exc) : Res (Exc × Nat) :=
  match s.frames with
  | [] => .ub "guard_pop: no exception"
  | e :: es =>
    match e.stack with
    | none => .ub "guard_pop: empty list"
    | some a => .ok ({ s with frames := { e with stack := (s.guards a).prev } :: es }, a)

/-- guard_runner, guard.h:25-33. -/
def guard_runner (s : Exc) (self : Nat) : Res Exc :=
  match (s.guards self).fn with
  | none => .ok s
  | some f =>
    s.guard_pop.bind fun r =>
      .ok ((r.1.say (.ran f)).setGuard self { r.1.guards self with fn := none })

/-- unguard, guard.h:35-41. -/
def unguard (s : Exc) : Res Exc :=
  s.guard_pop.bind fun r => .ok (r.1.setGuard r.2 { r.1.guards r.2 with fn := none })

/-- guard_as, guard.h:43-53: the new state and the address of the guard. -/
def guard_as (s : Exc) (f : Nat) : Res (Exc × Nat) :=
  match s.frames with
  | [] => .ub "guard_as: no exception"
  | e :: es =>
    .ok (({ s with frames := { e with stack := some s.next } :: es, next := s.next + 1 }).setGuard s.next ⟨some f, e.stack⟩,
      s.next)

/-- The guards of a block run when it is left, last declared first. -/
def runners (s : Exc) : List Nat → Res Exc
  | [] => .ok s
  | a :: decl => (s.guard_runner a).bind fun s => runners s decl

/-- Run a block; `decl` are its guards declared so far, last first.  The result
says whether an exception is in flight. -/
def exec : GProg → Exc → List Nat → Res (Exc × Bool)
  | .done, s, decl => (s.runners decl).bind fun s => .ok (s, false)
  | .act i k, s, decl => exec k (s.say (.did i)) decl
  | .guard f k, s, decl => (s.guard_as f).bind fun r => exec k r.1 (r.2 :: decl)
  | .unguard k, s, decl => s.unguard.bind fun s => exec k s decl
  | .throw, s, _ => s.throw.bind fun s => .ok (s, true)
  | .block b k, s, decl =>
    (exec b s []).bind fun r => if r.2 then .ok r else exec k r.1 decl
  | .tryCatch b h k, s, decl =>
    (exec b s.enter []).bind fun r =>
      r.1.leave.bind fun r =>
        if r.2 then (exec h r.1 []).bind fun r => if r.2 then .ok r else exec k r.1 decl
        else exec k r.1 decl

/-- No guard, no exception, nothing observed. -/
def init : Exc := ⟨fun _ => ⟨none, none⟩, 0, [], []⟩

end Exc
end Verif
