import Verif.Model.Rbtree
import Verif.Model.Event

/-!
Model of engine/io/memtable.h, memtable.c and memtable_iterator.h.

A page carries a unique `pid`, its address in C; page pointers held by
iterators are `pid`s.  Events are immutable values (C: pointers into the heap,
never modified after event_init).
-/
namespace Verif

/-- `struct MemtablePage`, engine/io/memtable.h:19-24.  `events_count` is the
length of `events`. -/
structure Page where
  pid : Nat
  events : List Event
deriving Repr, DecidableEq, Inhabited

/-- `struct MemtableIterator`, engine/io/memtable_iterator.h:18-26. -/
structure MIter where
  current : Option Event
  page : Option Nat
  pos : Nat
deriving Repr, DecidableEq, Inhabited

/-- `struct Memtable`, engine/io/memtable.h:26-39.  `iters` are the attached
iterators (`iterators`, `iterators_count`); the heap is modelled separately;
`nextPid` is the address of the next allocated page. -/
structure Memtable where
  tree : Rb.Tree Page
  sizePage : Nat
  sizeSplit : Nat
  countPages : Nat
  count : Nat
  lsnMin : Nat
  lsnMax : Nat
  iters : List MIter
  nextPid : Nat
deriving Repr, DecidableEq

namespace Memtable

/-- memtable_init, memtable.c:21-38.  part_init passes 512 and 508
(engine/io/part.c). -/
def init (sizePage sizeSplit : Nat) : Memtable :=
  { tree := .nil, sizePage, sizeSplit, countPages := 0, count := 0,
    lsnMin := 18446744073709551615, lsnMax := 0, iters := [], nextPid := 0 }

/-- memtable_compare, memtable.c:56-60; `page->events[0]` is read. -/
def pageCompare (mc : MemCmp) (key : Event) (p : Page) : Res Int :=
  match p.events with
  | e :: _ => .ok (compareInt mc e key)
  | [] => .ub "memtable_compare: events[0] of an empty page"

/-- memtable_search_page, memtable.c:93-113. -/
def searchPage (mc : MemCmp) (m : Memtable) (key : Event) : Res (Rb.Loc Page) :=
  if m.countPages = 1 then
    match Rb.min m.tree with
    | some x => .ok x
    | none => .ub "memtable_search_page: NULL page"
  else
    (Rb.get (pageCompare mc key) m.tree []).bind fun
      | none => .abort "memtable_search_page: part_ptr != NULL"
      | some (rc, x) =>
        if rc = 1 then
          match Rb.prev x with
          | some p => .ok p
          | none => .ok x
        else .ok x

/-- The loop of memtable_search, memtable.c:124-139, on the half open interval
`[lo, hi)`, i.e. `min = lo`, `max = hi - 1`.  `fuel` bounds the number of
rounds (`hi - lo` suffices). -/
def searchLoop (mc : MemCmp) (ev : List Event) (key : Event) :
    Nat → Nat → Nat → Res (Nat × Bool)
  | 0, lo, hi => if lo < hi then .ub "memtable_search: fuel" else .ok (lo, false)
  | fuel + 1, lo, hi =>
    if lo < hi then
      let mid := lo + (hi - 1 - lo) / 2
      match ev[mid]? with
      | none => .ub "memtable_search: index out of range"
      | some e =>
        let rc := compareInt mc e key
        if rc < 0 then searchLoop mc ev key fuel (mid + 1) hi
        else if rc > 0 then searchLoop mc ev key fuel lo mid
        else .ok (mid, true)
    else .ok (lo, false)

/-- memtable_search, memtable.c:115-141: position and match flag. -/
def search (mc : MemCmp) (p : Page) (key : Event) : Res (Nat × Bool) :=
  match p.events.getLast? with
  | none => .ub "memtable_search: events[-1]"
  | some e =>
    if compare mc e key < 0 then .ok (p.events.length, false)
    else searchLoop mc p.events key p.events.length 0 p.events.length

/-- memtable_iterator_sync, memtable_iterator.h:133-165: `page` and `split` are
the pages after the insertion. -/
def syncIter (it : MIter) (page : Page) (split : Option Page) (pos : Nat) : Res MIter :=
  if it.page ≠ some page.pid ∨ it.current = none then .ok it
  else if it.pos = pos then
    match page.events[it.pos]? with
    | some e => .ok { it with current := some e }
    | none => .ub "memtable_iterator_sync: index out of range"
  else
    let (pg, ipos) : Page × Nat :=
      match split with
      | some r =>
        if it.pos ≥ page.events.length then (r, it.pos - page.events.length) else (page, it.pos)
      | none => (page, it.pos)
    let ipos := if pos ≤ ipos then ipos + 1 else ipos
    match pg.events[ipos]? with
    | some e => .ok { current := some e, page := some pg.pid, pos := ipos }
    | none => .ub "memtable_iterator_sync: index out of range"

/-- memtable_sync, memtable.c:185-194. -/
def syncAll (page : Page) (split : Option Page) (pos : Nat) : List MIter → Res (List MIter)
  | [] => .ok []
  | it :: its =>
    (syncIter it page split pos).bind fun it' =>
    (syncAll page split pos its).bind fun its' => .ok (it' :: its')

/-- Result of memtable_insert: the page, the page split off (if any), the
replaced event, the attached iterators. -/
structure Inserted where
  page : Page
  split : Option Page
  prev : Option Event
  iters : List MIter

/-- memtable_insert, memtable.c:196-251.  `allocOk` says whether the page
allocation of a split succeeds (heap_allocate throws otherwise); `newPid` is the
address of the new page.  `insertIdx` is the memmove and store of lines
236-240. -/
def insert (mc : MemCmp) (sizePage sizeSplit : Nat) (allocOk : Bool) (newPid : Nat)
    (iters : List MIter) (page : Page) (event : Event) : Res Inserted :=
  (search mc page event).bind fun (pos, found) =>
  if found then
    let page' := { page with events := page.events.set pos event }
    (syncAll page' none pos iters).bind fun its =>
    .ok ⟨page', none, page.events[pos]?, its⟩
  else if page.events.length = sizePage then
    if !allocOk then .err "heap_allocate" else
    let l := page.events.take sizeSplit
    let r := (page.events.drop sizeSplit).take (sizePage - sizeSplit)
    if pos ≥ l.length then
      let pos := pos - l.length
      if r.length ≥ sizePage then .ub "memtable_insert: page overflow" else
      let lp : Page := { page with events := l }
      let rp : Page := { pid := newPid, events := r.insertIdx pos event }
      (syncAll lp (some rp) pos iters).bind fun its => .ok ⟨lp, some rp, none, its⟩
    else
      if l.length ≥ sizePage then .ub "memtable_insert: page overflow" else
      let lp : Page := { page with events := l.insertIdx pos event }
      let rp : Page := { pid := newPid, events := r }
      (syncAll lp (some rp) pos iters).bind fun its => .ok ⟨lp, some rp, none, its⟩
  else
    if page.events.length ≥ sizePage then .ub "memtable_insert: page overflow" else
    let lp : Page := { page with events := page.events.insertIdx pos event }
    (syncAll lp none pos iters).bind fun its => .ok ⟨lp, none, none, its⟩

/-- memtable_set, memtable.c:253-281: the new table and the replaced event. -/
def set (mc : MemCmp) (allocOk : Bool) (m : Memtable) (event : Event) :
    Res (Memtable × Option Event) :=
  if m.countPages = 0 then
    if !allocOk then .err "heap_allocate" else
    (Rb.set none 0 (⟨m.nextPid, [event]⟩ : Page)).bind fun t =>
    .ok ({ m with tree := t, countPages := 1, count := m.count + 1, nextPid := m.nextPid + 1 }, none)
  else
    (searchPage mc m event).bind fun x =>
    (insert mc m.sizePage m.sizeSplit allocOk m.nextPid m.iters x.v event).bind fun r =>
    let x' : Rb.Loc Page := { x with v := r.page }
    let count := if r.prev.isSome then m.count else m.count + 1
    match r.split with
    | none => .ok ({ m with tree := x'.tree, count, iters := r.iters }, r.prev)
    | some s =>
      (Rb.set (some x') (-1) s).bind fun t =>
      .ok ({ m with tree := t, countPages := m.countPages + 1, count,
                    nextPid := m.nextPid + 1, iters := r.iters }, r.prev)

/-- memtable_unset, memtable.c:283-313. -/
def unset (mc : MemCmp) (m : Memtable) (event : Event) : Res Memtable :=
  if m.countPages = 0 then .abort "memtable_unset: count_pages > 0"
  else
    (searchPage mc m event).bind fun x =>
    (search mc x.v event).bind fun (pos, found) =>
    if !found then .ok m
    else
      let events := x.v.events.eraseIdx pos
      if events.length = 0 then
        (Rb.remove x).bind fun t =>
        .ok { m with tree := t, countPages := m.countPages - 1, count := m.count - 1 }
      else
        .ok { m with tree := ({ x with v := { x.v with events } } : Rb.Loc Page).tree,
                     count := m.count - 1 }

/-- memtable_max, memtable.c:315-323. -/
def maxEvent (m : Memtable) : Res (Option Event) :=
  if m.countPages = 0 then .ok none
  else match Rb.max m.tree with
    | none => .ub "memtable_max: NULL page"
    | some x =>
      match x.v.events.getLast? with
      | none => .ub "memtable_max: events[-1]"
      | some e => .ok (some e)

/-- memtable_seek, memtable.c:325-346: page, position, match; `none` when the
table has no pages (the outputs are left unset). -/
def seek (mc : MemCmp) (m : Memtable) (key : Option Event) :
    Res (Option (Rb.Loc Page × Nat × Bool)) :=
  if m.countPages = 0 then .ok none
  else match key with
    | none =>
      match Rb.min m.tree with
      | none => .ub "memtable_seek: NULL page"
      | some x => .ok (some (x, 0, false))
    | some k =>
      (searchPage mc m k).bind fun x =>
      (search mc x.v k).bind fun (pos, found) => .ok (some (x, pos, found))

/-- memtable_follow, memtable.c:348-356. -/
def follow (m : Memtable) (lsn : Nat) : Memtable :=
  { m with lsnMin := if lsn < m.lsnMin then lsn else m.lsnMin,
           lsnMax := if lsn > m.lsnMax then lsn else m.lsnMax }

/-- memtable_free, memtable.c:62-72. -/
def free (m : Memtable) : Memtable :=
  { m with tree := .nil, countPages := 0, count := 0,
           lsnMin := 18446744073709551615, lsnMax := 0, iters := [] }

/-- memtable_iterator_open, memtable_iterator.h:28-56 (the attachment of lines
49-54 is done by the caller `openAttached`). -/
def iterOpen (mc : MemCmp) (m : Memtable) (key : Option Event) : Res (MIter × Bool) :=
  if m.count = 0 then .ok (⟨none, none, 0⟩, false)
  else
    (seek mc m key).bind fun
      | none => .ub "memtable_iterator_open: NULL page"
      | some (x, pos, found) =>
        match x.v.events[pos]? with
        | none => .ok (⟨none, none, 0⟩, false)
        | some e => .ok (⟨some e, some x.v.pid, pos⟩, found)

/-- memtable_iterator_next, memtable_iterator.h:70-93. -/
def iterNext (m : Memtable) (it : MIter) : Res MIter :=
  match it.current, it.page with
  | none, _ => .ok it
  | some _, none => .ub "memtable_iterator_next: NULL page"
  | some _, some pid =>
    match Rb.locate (fun p => p.pid == pid) m.tree [] with
    | none => .ub "memtable_iterator_next: page is not linked"
    | some x =>
      match x.v.events[it.pos + 1]? with
      | some e => .ok ⟨some e, some pid, it.pos + 1⟩
      | none =>
        match Rb.next x with
        | none => .ok ⟨none, none, 0⟩
        | some y =>
          match y.v.events with
          | e :: _ => .ok ⟨some e, some y.v.pid, 0⟩
          | [] => .ub "memtable_iterator_next: events[0] of an empty page"

/-- Iterating to the end: `while (has) { at; next }`. -/
def iterAll (m : Memtable) : Nat → MIter → Res (List Event)
  | 0, it => match it.current with
    | none => .ok []
    | some _ => .ub "fuel"
  | fuel + 1, it =>
    match it.current with
    | none => .ok []
    | some e =>
      (iterNext m it).bind fun it' =>
      (iterAll m fuel it').bind fun es => .ok (e :: es)

/-- Opening an iterator and reading it to the end. -/
def scan (mc : MemCmp) (m : Memtable) (key : Option Event) : Res (List Event) :=
  (iterOpen mc m key).bind fun (it, _) => iterAll m (m.count + 1) it

end Memtable
end Verif
