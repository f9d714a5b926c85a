import Verif.Model.Basic

/-! Model of engine/engine/lockage.h: the partition locks.  All locks of the
engine (partition and lock type) share one mutex and one condition variable
(engine/engine/ref.h:43-48), so a lock is just a number here. -/
namespace Verif

/-- `struct Lock`, engine/engine/lockage.h:26-31.  `locker` 0 is `none`
(pthread_self is never 0).  The counters are `int` without overflow. -/
structure PLock where
  locker : Option Nat
  refs : Int
  pending : Int
deriving Repr, DecidableEq

/-- All locks, and for every thread the lock it sleeps on in cond_var_wait and
whether it has been woken by a broadcast since. -/
structure Locks where
  lock : Nat → PLock
  wait : Nat → Option (Nat × Bool)

namespace Locks

/-- lockage_init, lockage.h:40-53. -/
def init : Locks := ⟨fun _ => ⟨none, 0, 0⟩, fun _ => none⟩

def setLock (s : Locks) (p : Nat) (l : PLock) : Nat → PLock := fun q => if q = p then l else s.lock q
def setWait (s : Locks) (t : Nat) (w : Option (Nat × Bool)) : Nat → Option (Nat × Bool) :=
  fun u => if u = t then w else s.wait u

/-- One pass through the loop of lockage_lock, lockage.h:77-88: take a free lock
or go to sleep.  The result says whether lockage_lock returns. -/
def attempt (s : Locks) (t p : Nat) : Locks × Bool :=
  match (s.lock p).locker with
  | none => (⟨s.setLock p ⟨some t, 0, (s.lock p).pending⟩, s.setWait t none⟩, true)
  | some _ =>
    (⟨s.setLock p { s.lock p with pending := (s.lock p).pending + 1 }, s.setWait t (some (p, false))⟩, false)

/-- lockage_lock up to its return or its first sleep, lockage.h:62-89. -/
def lockage_lock (s : Locks) (t p : Nat) : Locks × Bool :=
  if (s.lock p).locker = some t then
    ({ s with lock := s.setLock p { s.lock p with refs := (s.lock p).refs + 1 } }, true)
  else attempt s t p

/-- A sleeping thread runs again (lockage.h:87 and the next pass). -/
def wake (s : Locks) (t : Nat) : Locks × Bool :=
  match s.wait t with
  | none => (s, false)
  | some (p, _) =>
    attempt { s with lock := s.setLock p { s.lock p with pending := (s.lock p).pending - 1 } } t p

/-- cond_var_broadcast: every sleeping thread is woken. -/
def broadcast (s : Locks) : Locks :=
  { s with wait := fun t => (s.wait t).map fun w => (w.1, true) }

/-- lockage_unlock, lockage.h:91-111.  It does not look at the calling thread. -/
def lockage_unlock (s : Locks) (p : Nat) : Locks :=
  let refs := (s.lock p).refs - 1
  if refs > 0 then { s with lock := s.setLock p { s.lock p with refs := refs } }
  else
    let s' := { s with lock := s.setLock p ⟨none, 0, (s.lock p).pending⟩ }
    if (s.lock p).pending > 0 then broadcast s' else s'

end Locks
end Verif
