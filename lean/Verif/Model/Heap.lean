import Verif.Model.Basic

/-!
Memory pages: runtime/lib/memory_mgr.h and runtime/lib/heap.h.

A page is known by a number standing for its address.  `Mm.pages` lists the
pages that are mapped at present, with their header; reading or writing a page
that is not mapped is `ub`.  The mutex is not modelled: each function body between
lock and unlock is one step.  Counters are unbounded integers (the C fields are
`int`, 2^31 pages of 2 MiB do not exist).
-/
namespace Verif

/-- Page header, runtime/lib/memory_mgr.h:19-24. -/
structure PageS where
  used : Int
  next : Option Nat
deriving Repr, DecidableEq

/-- Mapped pages. -/
abbrev Pages := List (Nat × PageS)

namespace Pages

/-- Header of page `a`, if it is mapped. -/
def get (m : Pages) (a : Nat) : Option PageS := (List.find? (fun x => x.1 == a) m).map (·.2)

/-- Write the header of page `a`. -/
def put (m : Pages) (a : Nat) (s : PageS) : Pages := List.map (fun x => if x.1 = a then (a, s) else x) m

/-- munmap of page `a`. -/
def unmap (m : Pages) (a : Nat) : Pages := List.filter (fun x => x.1 != a) m

theorem unmap_length (m : Pages) (a : Nat) (s : PageS) (h : get m a = some s) :
    (unmap m a).length < m.length := by
  unfold get at h
  cases hf : List.find? (fun x => x.1 == a) m with
  | none => rw [hf] at h; cases h
  | some x =>
    have h1 := List.find?_some hf
    have h2 := List.mem_of_find?_eq_some hf
    unfold unmap
    rcases Nat.lt_or_ge (List.filter (fun x => x.1 != a) m).length m.length with h3 | h3
    · exact h3
    · have h4 : (List.filter (fun x => x.1 != a) m).length = m.length :=
        Nat.le_antisymm (List.length_filter_le _ _) h3
      rw [List.length_filter_eq_length_iff] at h4
      have := h4 x h2
      simp at this h1
      exact absurd h1 this

/-- The loops that unmap a chain of pages, memory_mgr.h:87-92, 98-103, 187-192. -/
def unmapChain (m : Pages) (p : Option Nat) : Res Pages :=
  match p with
  | none => .ok m
  | some a =>
    match h : get m a with
    | none => .ub "page is not mapped"
    | some s => unmapChain (unmap m a) s.next
termination_by m.length
decreasing_by exact unmap_length m a s h

end Pages

/-- MemoryMgr, memory_mgr.h:26-39. -/
structure Mm where
  pages : Pages
  count : Int
  freeList : Option Nat
  freeCount : Int
  pageSize : Int
  cache : Nat
  limit : Bool
  limitError : Bool
  limitWm : Nat
  hits : Nat
deriving Repr, DecidableEq

namespace Mm
open Pages

/-- memory_mgr_init and memory_mgr_set, memory_mgr.h:41-75: an empty manager
with the given settings; `page_size` as an `int`, the header of 16 bytes
subtracted. -/
def init (page_size : Int) (cache : Nat) (limit : Bool) (limit_error : Bool) (limit_wm : Nat) : Mm :=
  { pages := [], count := 0, freeList := none, freeCount := 0, pageSize := page_size - 16,
    cache := cache, limit := limit, limitError := limit_error, limitWm := limit_wm, hits := 0 }

/-- memory_mgr_reset, memory_mgr.h:77-93. -/
def reset (m : Mm) : Res Mm :=
  let page := m.freeList
  let m := { m with count := m.count - m.freeCount, freeList := none, freeCount := 0 }
  (unmapChain m.pages page).bind fun ps => .ok { m with pages := ps }

/-- memory_mgr_pop_cache, memory_mgr.h:112-122. -/
def pop_cache (m : Mm) : Res (Mm × Nat) :=
  match m.freeList with
  | none => .abort "memory_mgr_pop_cache: free_list"
  | some a =>
    match get m.pages a with
    | none => .ub "page is not mapped"
    | some s =>
      .ok ({ m with
             freeCount := m.freeCount - 1,
             freeList := s.next,
             pages := put m.pages a ⟨0, none⟩ }, a)

/-- Outcome of memory_mgr_pop: a page, or the caller sleeps on the condition
variable (memory_mgr.h:148-149), or an error is thrown (the manager's fields
written before it keep their new values, so this is not `Res.err`). -/
inductive Pop where
  | page (a : Nat)
  | wait
  | throw
deriving Repr, DecidableEq

/-- memory_mgr_pop, memory_mgr.h:124-168.  `env` is what mmap returns: the
address of a new page or none on failure. -/
def pop (m : Mm) (env : Option Nat) : Res (Mm × Pop) :=
  if m.freeList.isSome then
    m.pop_cache.bind fun r => .ok (r.1, .page r.2)
  else if m.limit = true ∧ wrapU64 (m.count * m.pageSize) ≥ m.limitWm then
    let m := { m with hits := m.hits + 1 }
    if m.limitError then .ok (m, .throw) else .ok (m, .wait)
  else
    let m := { m with count := m.count + 1 }
    match env with
    | none => .ok (m, .throw)
    | some a => .ok ({ m with pages := (a, ⟨0, none⟩) :: m.pages }, .page a)

/-- The wait loop of memory_mgr_pop after a wake-up, memory_mgr.h:148-153. -/
def resume (m : Mm) : Res (Mm × Pop) :=
  if m.freeList.isSome then m.pop_cache.bind fun r => .ok (r.1, .page r.2) else .ok (m, .wait)

/-- memory_mgr_push, memory_mgr.h:170-193. -/
def push (m : Mm) (page tail : Nat) (count : Int) : Res Mm :=
  if wrapU64 (m.freeCount * m.pageSize) < m.cache then
    match get m.pages tail with
    | none => .ub "page is not mapped"
    | some s =>
      .ok { m with
            pages := put m.pages tail { s with next := m.freeList },
            freeList := some page,
            freeCount := m.freeCount + count }
  else
    (unmapChain m.pages (some page)).bind fun ps =>
      .ok { m with count := m.count - count, pages := ps }

end Mm

/-- Heap, runtime/lib/heap.h:18-24. -/
structure Heap where
  list : Option Nat
  tail : Option Nat
  count : Int
deriving Repr, DecidableEq

namespace Heap
open Pages

/-- heap_init, heap.h:26-33. -/
def init : Heap := ⟨none, none, 0⟩

/-- heap_reset, heap.h:35-47. -/
def reset (h : Heap) (m : Mm) : Res (Heap × Mm) :=
  if h.count > 0 then
    match h.list, h.tail with
    | some p, some t => (m.push p t h.count).bind fun m => .ok (⟨none, none, 0⟩, m)
    | _, _ => .ub "null page"
  else .ok (⟨none, none, 0⟩, m)

/-- Result of heap_allocate: page and offset of the memory, NULL, or the caller
sleeps in memory_mgr_pop, or memory_mgr_pop threw. -/
inductive Ptr where
  | at (page : Nat) (off : Int)
  | null
  | wait
  | throw
deriving Repr, DecidableEq

/-- The end of heap_allocate, heap.h:75-77. -/
def bump (m : Mm) (page : Nat) (size : Int) : Res (Mm × Ptr) :=
  match get m.pages page with
  | none => .ub "page is not mapped"
  | some s => .ok ({ m with pages := put m.pages page { s with used := s.used + size } }, .at page s.used)

/-- heap.h:65-72: link a new page at the tail, then allocate from it. -/
def grow (h : Heap) (size : Int) (r : Mm × Mm.Pop) : Res (Heap × Mm × Ptr) :=
  match r.2 with
  | .wait => .ok (h, r.1, .wait)
  | .throw => .ok (h, r.1, .throw)
  | .page a =>
    match h.list with
    | none => (bump r.1 a size).bind fun b => .ok (⟨some a, some a, h.count + 1⟩, b.1, b.2)
    | some _ =>
      match h.tail with
      | none => .ub "null page"
      | some t =>
        match get r.1.pages t with
        | none => .ub "page is not mapped"
        | some s =>
          (bump { r.1 with pages := put r.1.pages t { s with next := some a } } a size).bind fun b =>
            .ok ({ h with tail := some a, count := h.count + 1 }, b.1, b.2)

/-- heap_allocate, heap.h:56-78; `size` is an `int`. -/
def allocate (h : Heap) (m : Mm) (size : Int) (env : Option Nat) : Res (Heap × Mm × Ptr) :=
  if size > m.pageSize then .ok (h, m, .null)
  else
    match h.list, h.tail with
    | none, _ => (m.pop env).bind (grow h size)
    | some _, none => .ub "null page"
    | some _, some t =>
      match get m.pages t with
      | none => .ub "page is not mapped"
      | some s =>
        if m.pageSize - s.used < size then (m.pop env).bind (grow h size)
        else (bump m t size).bind fun b => .ok (h, b.1, b.2)

/-- heap_allocate going on after its memory_mgr_pop had to wait. -/
def resume (h : Heap) (m : Mm) (size : Int) : Res (Heap × Mm × Ptr) :=
  m.resume.bind (grow h size)

/-- event_allocate, engine/io/event.h:80-87, up to the writes of event_init:
the size of a record is the 14 byte header plus key and value, converted to the
`int` parameter of heap_allocate, and event_init writes that many bytes
(unconverted) through the pointer. -/
def event_allocate (h : Heap) (m : Mm) (argSize : Nat) (env : Option Nat) : Res (Heap × Mm × Ptr) :=
  (h.allocate m (wrapS32 (14 + (argSize : Int))) env).bind fun r =>
    match r.2.2 with
    | .null => .ub "event_init: null pointer"
    | .at _ off =>
      if off < 0 ∨ off + (14 + (argSize : Int)) > m.pageSize then .ub "event_init: write outside the page"
      else .ok r
    | .wait => .ok r
    | .throw => .ok r

end Heap
end Verif
