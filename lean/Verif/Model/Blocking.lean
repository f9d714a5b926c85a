import Verif.Model.Control

/-! Model of threads that wait for memory: runtime/lib/memory_mgr.h with a limit,
beside the locks of Model/Control.lean.  Pages are counted, not named (Model/Heap.lean
has the pages themselves); an mmap call that fails and numbers beyond 64 bits are left
out, C43 has them.  The mutex of the manager is not modelled: what is done under it is
one step. -/
namespace Verif

/-- `struct MemoryMgr`, runtime/lib/memory_mgr.h:26-39: the settings, the pages that are
mapped, and those of them in the free list. -/
structure Pool where
  page_size : Nat
  cache : Nat
  limit : Bool
  limit_error : Bool
  limit_wm : Nat
  count : Nat
  free : Nat
deriving Repr, DecidableEq

/-- What becomes of a request for a page. -/
inductive Popped
  | got (m : Pool)
  | wait
  | throw
deriving Repr, DecidableEq

namespace Pool

/-- The limit is reached, memory_mgr.h:136-139. -/
def full (m : Pool) : Bool := m.limit && decide (m.limit_wm ≤ m.count * m.page_size)

/-- memory_mgr_pop up to its return or its first sleep, memory_mgr.h:124-168. -/
def pop (m : Pool) : Popped :=
  if 0 < m.free then .got { m with free := m.free - 1 }
  else if m.full then
    if m.limit_error then .throw else .wait
  else .got { m with count := m.count + 1 }

/-- memory_mgr_push of `k` pages, memory_mgr.h:170-193, and whether it wakes those who
wait. -/
def push (m : Pool) (k : Nat) : Pool × Bool :=
  if m.free * m.page_size < m.cache then ({ m with free := m.free + k }, true)
  else ({ m with count := m.count - k }, false)

/-- memory_mgr_reset, memory_mgr.h:77-93. -/
def reset (m : Pool) : Pool := { m with
  count := m.count - m.free,
  free := 0 }

end Pool

/-- What a thread does to locks and memory. -/
inductive Deed
  | lock (a : Act)
  /-- memory_mgr_pop in heap_allocate, runtime/lib/heap.h:65, for the table of partition
  `p`; `undo` is what is done to the locks if it throws -/
  | page (p : Nat) (undo : List Act)
  /-- part_memtable_rotate, engine/io/part.h:94-105 -/
  | rotate (p : Nat)
  /-- memtable_free of the rotated table, engine/engine/refresh.c:175 -/
  | free (p : Nat)
  /-- part_free, engine/io/part.c:43-51 -/
  | drop (p : Nat)
  /-- memory_mgr_reset, main/main/execute.c:209-211 -/
  | reset
  /-- the call returns -/
  | fin
deriving Repr, DecidableEq

namespace Deed
open Act

def locks (as : List Act) : List Deed := as.map lock

/-- The events `es` of engine_write, engine/engine/write.c:83-109, `done` being the
partitions of those before, last first, and engine_commit, write.c:45-72.  An event
takes the lock of its partition and then some pages: none if the last page has room,
one for the event, one for the page of the tree.  If there is no page engine_rollback,
write.c:24-43, gives the locks back, last first (what else it does: C09). -/
def events (done : List Nat) : List (Nat × Nat) → List Deed
  | [] => locks (done.reverse.flatMap fun p => engine_unlock (accessOf p))
  | (p, k) :: es =>
    locks (engine_lock (accessOf p)) ++
      List.replicate k (page p ((p :: done).flatMap fun q => engine_unlock (accessOf q))) ++
      events (p :: done) es

/-- engine_write, write.c:74-127. -/
def engine_write (es : List (Nat × Nat)) : List Deed := events [] es ++ [fin]

/-- refresh_run, refresh.c:201-237, of a refresh that succeeds: refresh_begin, 55-118,
refresh_apply, 134-166, refresh_end, 168-199. -/
def refresh_run (p : Nat) : List Deed :=
  locks (engine_lock (serviceOf p)) ++
    [lock (take (accessOf p)), rotate p, lock (give (accessOf p))] ++
    locks [take (accessOf p), give (accessOf p)] ++ [free p] ++
    locks (engine_unlock (serviceOf p)) ++ [fin]

/-- engine_drop, engine/engine/op.c: engine_drop_file, 164-237, and
engine_drop_reference, 239-287.  The partition is freed after control_unlock, op.c:273,
when nobody can find it any more; here before. -/
def engine_drop (p : Nat) : List Deed :=
  locks (engine_file p) ++ [lock exclusive, drop p, lock release] ++ [fin]

/-- DEBUG MEMORY_GC, execute.c:209-211, without a lock, execute.c:511. -/
def debug_memory_gc : List Deed := [reset, fin]

/-- Any other call. -/
def other (as : List Act) : List Deed := locks as ++ [fin]

/-- The rest of a call that goes on, without `fin`. -/
def isFin : Deed → Bool
  | fin => true
  | _ => false

end Deed

/-- Locks, memory, and what each thread still has to do.  `mem p` are the pages of the
table of partition `p` that is written to, `old p` those of its other table, `asleep t`
tells that thread `t` waits for a page, and whether it has been woken since; `failed t`
counts the calls of `t` that failed. -/
structure Room where
  control : Rwlock
  locks : Locks
  pool : Pool
  mem : Nat → Nat
  old : Nat → Nat
  asleep : Nat → Option Bool
  rest : Nat → List Deed
  failed : Nat → Nat

namespace Room

def set {α : Type} (f : Nat → α) (i : Nat) (x : α) : Nat → α := fun j => if j = i then x else f j

/-- heap_reset with `k` pages, heap.h:35-47: memory_mgr_push, which wakes all that wait
for memory if the pages go to the free list, memory_mgr.h:174-179. -/
def give_back (s : Room) (k : Nat) : Room :=
  if k = 0 then s
  else
    let r := s.pool.push k
    { s with
      pool := r.1,
      asleep := if r.2 then fun u => (s.asleep u).map fun _ => true else s.asleep }

/-- Thread `t` has its page and goes on, heap.h:66-76. -/
def got (s : Room) (t p : Nat) (m : Pool) (k : List Deed) : Room :=
  { s with
    pool := m,
    mem := set s.mem p (s.mem p + 1),
    asleep := set s.asleep t none,
    rest := set s.rest t k }

/-- One step of thread `t`.  A thread that waits for a page runs only when woken, or
`spurious`ly, and then looks for a page in the free list only, memory_mgr.h:147-153. -/
def step (first : Bool) (s : Room) (t : Nat) (spurious : Bool) : Res Room :=
  match s.rest t with
  | [] => .ok s
  | .lock a :: k =>
    match Threads.step first ⟨s.control, s.locks, fun u => if u = t then [a] else []⟩ t spurious with
    | .ok c => .ok { s with
        control := c.control,
        locks := c.locks,
        rest := if (c.rest t).isEmpty then set s.rest t k else s.rest }
    | .err m => .err m
    | .abort m => .abort m
    | .ub m => .ub m
  | .page p undo :: k =>
    match s.asleep t with
    | none =>
      match s.pool.pop with
      | .got m => .ok (s.got t p m k)
      | .wait => .ok { s with asleep := set s.asleep t (some false) }
      | .throw => .ok { s with
          rest := set s.rest t (Deed.locks undo ++ k.dropWhile (fun d => !d.isFin)),
          failed := set s.failed t (s.failed t + 1) }
    | some woken =>
      if woken || spurious then
        if 0 < s.pool.free then .ok (s.got t p { s.pool with free := s.pool.free - 1 } k)
        else .ok { s with asleep := set s.asleep t (some false) }
      else .ok s
  | .rotate p :: k => .ok { s with
      mem := set s.mem p (s.old p),
      old := set s.old p (s.mem p),
      rest := set s.rest t k }
  | .free p :: k => .ok { s.give_back (s.old p) with
      old := set s.old p 0,
      rest := set s.rest t k }
  | .drop p :: k => .ok { (s.give_back (s.mem p)).give_back (s.old p) with
      mem := set s.mem p 0,
      old := set s.old p 0,
      rest := set s.rest t k }
  | .reset :: k => .ok { s with
      pool := s.pool.reset,
      rest := set s.rest t k }
  | .fin :: k => .ok { s with rest := set s.rest t k }

end Room
end Verif
