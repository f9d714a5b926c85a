import Verif.Model.Heap

/-! C43, C44: tables that take memory from the memory manager. -/
namespace Verif.Mem

/-- Memory handed out and not yet released: heap, page, offset, size. -/
structure Alloc where
  heap : Nat
  page : Nat
  off : Int
  size : Int
deriving Repr, DecidableEq

/-- The manager, the heaps of the tables, the requests that sleep until a page
is free, and two observations: memory in use and mmap calls that failed. -/
structure W where
  mm : Mm
  heap : Nat → Heap
  pend : Nat → Option Int
  live : List Alloc
  fails : Nat

inductive Ev where
  /-- heap_allocate on heap `h`; `env` is the result of mmap if it is called. -/
  | alloc (h : Nat) (size : Nat) (env : Option Nat)
  /-- The sleeping request of heap `h` runs again. -/
  | wake (h : Nat)
  /-- heap_reset, by memtable_free (engine/io/memtable.c:62-72). -/
  | reset (h : Nat)
  /-- memory_mgr_reset. -/
  | trim
  /-- memtable_move of table `b` into the empty table `a` (memtable.c:74-88). -/
  | move (a b : Nat)

def upd {α : Type} (f : Nat → α) (i : Nat) (x : α) : Nat → α := fun j => if j = i then x else f j

/-- mmap returns memory that is not mapped already. -/
def fresh (m : Mm) (env : Option Nat) : Bool :=
  match env with
  | none => true
  | some a => (m.pages.get a).isNone

/-- Book a finished request. -/
def settle (w : W) (h : Nat) (size : Int) (r : Heap × Mm × Heap.Ptr) : W :=
  match r.2.2 with
  | .at p o => { w with mm := r.2.1, heap := upd w.heap h r.1, pend := upd w.pend h none, live := ⟨h, p, o, size⟩ :: w.live }
  | .wait => { w with mm := r.2.1, heap := upd w.heap h r.1, pend := upd w.pend h (some size) }
  | .null => { w with mm := r.2.1, heap := upd w.heap h r.1, pend := upd w.pend h none }
  | .throw => { w with
      mm := r.2.1, heap := upd w.heap h r.1, pend := upd w.pend h none
      fails := if r.2.1.count = w.mm.count then w.fails else w.fails + 1 }

/-- One event on `n` heaps; events that cannot occur are skipped. -/
def step (n : Nat) (w : W) : Ev → Res W
  | .alloc h size env =>
    if h < n ∧ w.pend h = none ∧ fresh w.mm env = true then
      ((w.heap h).allocate w.mm size env).bind fun r => .ok (settle w h size r)
    else .ok w
  | .wake h =>
    match w.pend h with
    | none => .ok w
    | some size => ((w.heap h).resume w.mm size).bind fun r => .ok (settle w h size r)
  | .reset h =>
    if h < n ∧ w.pend h = none then
      ((w.heap h).reset w.mm).bind fun r =>
        .ok { w with mm := r.2, heap := upd w.heap h r.1, live := w.live.filter (fun x => x.heap != h) }
    else .ok w
  | .trim => w.mm.reset.bind fun m => .ok { w with mm := m }
  | .move a b =>
    if a < n ∧ b < n ∧ a ≠ b ∧ w.pend a = none ∧ w.pend b = none ∧ (w.heap a).count = 0 then
      .ok { w with
            heap := upd (upd w.heap a (w.heap b)) b Heap.init
            live := w.live.map (fun x => if x.heap = b then { x with heap := a } else x) }
    else .ok w

def start (m : Mm) : W := ⟨m, fun _ => Heap.init, fun _ => none, [], 0⟩

def run (n : Nat) : W → List Ev → Res W
  | w, [] => .ok w
  | w, e :: es => (step n w e).bind fun w => run n w es

/-- The pages reached from `p`, at most `fuel` of them. -/
def walk (m : Pages) : Nat → Option Nat → List Nat
  | 0, _ => []
  | _, none => []
  | fuel + 1, some a => a :: (match m.get a with | some s => walk m fuel s.next | none => [])

def cached (w : W) : List Nat := walk w.mm.pages w.mm.pages.length w.mm.freeList
def owned (w : W) (h : Nat) : List Nat := walk w.mm.pages w.mm.pages.length (w.heap h).list

/-- C43: what memory_mgr_show reports is what there is. -/
structure Exact (n : Nat) (w : W) : Prop where
  total : w.mm.count = w.mm.pages.length
  free : w.mm.freeCount = (cached w).length
  used : w.mm.count - w.mm.freeCount = (((List.range n).map (fun h => (owned w h).length)).sum : Nat)
  each : ∀ h, h < n → (w.heap h).count = (owned w h).length
  all : (w.mm.pages.map (·.1)).Perm (cached w ++ (List.range n).flatMap (owned w))

/-- C43: pages in use stay within the configured limit. -/
def Limited (w : W) : Prop :=
  w.mm.limit = true → (w.mm.count - w.mm.freeCount) * w.mm.pageSize ≤ w.mm.limitWm

/-- C44: memory in use lies inside mapped pages and does not overlap. -/
structure Disjoint (w : W) : Prop where
  inside : ∀ x ∈ w.live, 0 ≤ x.off ∧ x.off + x.size ≤ w.mm.pageSize ∧ (w.mm.pages.get x.page).isSome
  apart : w.live.Pairwise (fun x y => x.page ≠ y.page ∨ x.off + x.size ≤ y.off ∨ y.off + y.size ≤ x.off)

/-- Valid settings: mm_page_size leaves room after the 16 byte header and is an
`int`, the limit is below 2^63 (it is an int64 setting). -/
def Settings (page_size : Int) (wm : Nat) : Prop := 16 < page_size ∧ page_size < 2147483648 ∧ wm < 9223372036854775808

end Verif.Mem

namespace Verif.C43
open Mem

/-- The full property. -/
def Full : Prop :=
  ∀ n page_size cache limit limit_error wm, Settings page_size wm →
    ∀ es, ∃ w, run n (start (Mm.init page_size cache limit limit_error wm)) es = .ok w ∧ Exact n w ∧ Limited w

end Verif.C43

namespace Verif.C44
open Mem

/-- The full property for heaps, and for records of any size: the request for a
record succeeds, waits, or fails with an error. -/
def Full : Prop :=
  ∀ n page_size cache limit limit_error wm, Settings page_size wm →
    ∀ es, ∃ w, run n (start (Mm.init page_size cache limit limit_error wm)) es = .ok w ∧ Disjoint w ∧
      ∀ h, h < n → w.pend h = none → ∀ size env, fresh w.mm env = true → size < 18446744073709551616 - 14 →
        (∃ r, (w.heap h).event_allocate w.mm size env = .ok r) ∨ ∃ m, (w.heap h).event_allocate w.mm size env = .err m

end Verif.C44
