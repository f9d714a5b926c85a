import Verif.Model.Directory

/-! C61: a directory is used by one environment at a time, and is free again
when that one is closed. -/
namespace Verif.C61
open Directory

inductive Op where
  | init (proc : Nat)
  | open_ (env dir : Nat) (luck : Luck)
  | free (env : Nat)
  | exit (proc : Nat)
deriving Repr, DecidableEq

def step (w : World) : Op → World × Answer
  | .init p => (w.init p, .done)
  | .open_ e d k => w.open_ e d k
  | .free e => w.free e
  | .exit p => (w.exit p, .done)

/-- An environment of a process works with a directory. -/
structure Use where
  env : Nat
  proc : Nat
  dir : Nat
deriving Repr, DecidableEq

def procOf (w : World) (e : Nat) : Nat :=
  match w.envs.find? (fun v => decide (v.id = e)) with
  | some v => v.proc
  | none => 0

/-- Who works with which directory, told from the calls and their answers: from
the call that got inside until the handle is freed or the process ends. -/
def uses (w : World) (us : List Use) (op : Op) : List Use :=
  match op with
  | .init _ => us
  | .open_ e d _ =>
    match (step w op).2 with
    | .done => us ++ [⟨e, procOf w e, d⟩]
    | .failedInside => us ++ [⟨e, procOf w e, d⟩]
    | _ => us
  | .free e => us.filter (fun u => decide (u.env ≠ e))
  | .exit p => us.filter (fun u => decide (u.proc ≠ p))

/-- A history, from the start of the machine. -/
def play : World → List Use → List Op → World × List Use
  | w, us, [] => (w, us)
  | w, us, op :: ops => play (step w op).1 (uses w us op) ops

/-- No directory is used twice. -/
def Exclusive (us : List Use) : Prop := us.Pairwise fun a b => a.dir ≠ b.dir

/-- Opening is refused as "in use" only if somebody uses the directory. -/
def Available (w : World) (us : List Use) : Prop :=
  ∀ e d k, (w.open_ e d k).2 = .inUse → ∃ u ∈ us, u.dir = d

/-- The full property. -/
def Full : Prop :=
  ∀ ops : List Op, Exclusive (play {} [] ops).2 ∧ Available (play {} [] ops).1 (play {} [] ops).2

/-- The handles that are opened, in order. -/
def opened : List Op → List Nat
  | [] => []
  | .open_ e _ _ :: ops => e :: opened ops
  | _ :: ops => opened ops

end Verif.C61
