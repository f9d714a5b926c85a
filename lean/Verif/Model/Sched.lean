import Verif.Model.Basic

/-! Model of the refresh flag of a partition: part_refresh_ready of
engine/io/part.h, engine_commit of engine/engine/write.c, refresh_run of
engine/engine/refresh.c, and what engine/engine/op.c does with the flag.

One partition and the background requests for it.  Requests and flags of other
partitions do not touch it.  A memory table is the number of pages of its heap;
whether an event needed a new page is part of the input (heap_allocate,
runtime/lib/heap.h:57-79). -/
namespace Verif.Sched

/-- The settings: bytes of a heap page with its header, and `refresh_wm` of the
storage as given to CREATE STORAGE (int64_t). -/
structure Conf where
  page : Nat
  wm : Nat
deriving Repr, DecidableEq

/-- `source->refresh_wm`: source_copy hands it through an `int`,
cloud/cloud/source.h:129-133 and 180. -/
def Conf.stored (c : Conf) : Int := wrapS32 c.wm

/-- `struct Part`, engine/io/part.h:18-35: the flag, and the pages of the table
that takes writes and of the other one. -/
structure Part where
  refresh : Bool
  act : Nat
  other : Nat
deriving Repr, DecidableEq

/-- Who runs a refresh: ACTION_REFRESH of a request (op.c:700-703), a command
(op.c:464-483), or a rebalance that moves the partition (op.c:579-594). -/
inductive Job where
  | request | command | move
deriving Repr, DecidableEq

/-- The partition (if it exists), the requests for it in the queue, the requests
taken by workers that have not reached their refresh, the rebalances that have
chosen the partition and not started, and the refresh that holds its service
lock. -/
structure St where
  part : Option Part
  waiting : Nat
  running : Nat
  moving : Nat
  job : Option Job
deriving Repr, DecidableEq

/-- After start. -/
def init : St := ⟨none, 0, 0, 0, none⟩

/-- part_allocate, engine/io/part.c:19-44. -/
def fresh : Part := ⟨false, 0, 0⟩

/-- heap_used, runtime/lib/heap.h:49-54. -/
def used (c : Conf) (pages : Nat) : Nat := pages * c.page

/-- part_refresh_ready, engine/io/part.h:107-115. -/
def ready (c : Conf) (p : Part) : Bool :=
  if p.refresh then false
  else if c.stored = 0 then false
  else decide (used c p.act > wrapU32 c.stored)

/-- The body of the loop of engine_commit for one event of the partition,
engine/engine/write.c:52-66. -/
def commitOne (c : Conf) (s : St) (p : Part) : St × Part :=
  if ready c p then ({ s with waiting := s.waiting + 1 }, { p with refresh := true })
  else (s, p)

/-- The loop, for `n` events of the partition. -/
def commit (c : Conf) : Nat → St → Part → St × Part
  | 0, s, p => (s, p)
  | n + 1, s, p => commit c n (commitOne c s p).1 (commitOne c s p).2

/-- The pages taken for a batch (`true`: the event needed a new one),
engine/engine/write.c:95-107. -/
def grow (p : Part) (news : List Bool) : Part :=
  { p with act := p.act + (news.filter id).length }

/-- The partition for a write: engine_lock creates it, engine/engine/engine.c:108-168. -/
def St.target (s : St) : Part :=
  match s.part with
  | some p => p
  | none => fresh

/-- What can happen. -/
inductive Ev where
  /-- a batch with these events for the partition is written -/
  | write (news : List Bool)
  /-- a batch fails after these events and is rolled back -/
  | refused (news : List Bool)
  | checkpoint
  /-- a worker takes the next request -/
  | take
  /-- a rebalance chooses the partition -/
  | mark
  /-- refresh_begin -/
  | start (j : Job)
  /-- refresh_merge succeeds, refresh_apply -/
  | apply
  /-- refresh_merge throws -/
  | fail
  /-- an action before the refresh of a taken request throws -/
  | giveUp
  /-- a rebalance that chose the partition ends without a refresh of it -/
  | moveEnds
  /-- DROP PARTITION, or the drop at the end of the last tier -/
  | drop
  /-- the process ends and starts again -/
  | restart
deriving Repr, DecidableEq

/-- One step; an event that is not possible changes nothing. -/
def step (c : Conf) (s : St) : Ev → St
  -- engine_write and engine_commit, engine/engine/write.c:45-138
  | .write news =>
    if news = [] then s
    else
      let r := commit c news.length s (grow s.target news)
      { r.1 with part := some r.2 }
  -- engine_rollback, write.c:24-43: the memory of the events stays in the heap
  | .refused news =>
    if news = [] then s else { s with part := some (grow s.target news) }
  -- engine_checkpoint, op.c:596-616
  | .checkpoint =>
    match s.part with
    | none => s
    | some p =>
      if !p.refresh ∧ used c p.act > 0 then
        { s with waiting := s.waiting + 1, part := some { p with refresh := true } }
      else s
  -- service_next, service.h:197-221
  | .take => if s.waiting = 0 then s else { s with waiting := s.waiting - 1, running := s.running + 1 }
  -- engine_rebalance_next, op.c:547-577
  | .mark =>
    match s.part with
    | none => s
    | some p => if p.refresh then s else { s with moving := s.moving + 1, part := some { p with refresh := true } }
  -- refresh_begin, refresh.c:55-118: part_memtable_rotate, part.h:94-105; nothing
  -- if the partition does not exist
  | .start j =>
    if s.job.isSome then s
    else if j = .request ∧ s.running = 0 then s
    else if j = .move ∧ s.moving = 0 then s
    else
      let s := match j with
        | .request => { s with running := s.running - 1 }
        | .move => { s with moving := s.moving - 1 }
        | .command => s
      match s.part with
      | none => s
      | some p => { s with job := some j, part := some { p with act := p.other, other := p.act } }
  -- refresh_apply and refresh_end, refresh.c:134-199: the new partition takes the
  -- active table, the other one is freed
  | .apply =>
    match s.job, s.part with
    | some _, some p => { s with job := none, part := some { fresh with act := p.act } }
    | _, _ => s
  -- refresh_run, refresh.c:217-236
  | .fail => { s with job := none }
  -- engine_service, op.c:715-720
  | .giveUp => if s.running = 0 then s else { s with running := s.running - 1 }
  -- engine_rebalance, op.c:579-594
  | .moveEnds => if s.moving = 0 then s else { s with moving := s.moving - 1 }
  -- engine_drop_reference, op.c:239-288: under the service lock
  | .drop => if s.job.isSome then s else { s with part := none }
  | .restart => init

/-- A history. -/
def run (c : Conf) : St → List Ev → St
  | s, [] => s
  | s, e :: es => run c (step c s e) es

end Verif.Sched
