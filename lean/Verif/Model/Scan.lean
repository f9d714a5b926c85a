import Verif.Model.Basic

/-!
Model of a cursor whose steps may fail: main/api/monotone.c (the cursor
functions), engine/engine/engine_cursor.h, engine/io/part_cursor.h,
engine/io/part_iterator.h, engine/io/reader.h, engine/io/merge_iterator.h and what
a cursor takes and gives back: the control lock, the mutex of the engine, the lock
of a partition, its place in the list of a table, contexts for compression and
encryption, memory.

`error()` leaves everything as it is and goes to the nearest `leave`
(runtime/runtime/exception.h): a computation that throws keeps its state.  Whether
a step fails is decided by a function of its number; the theorems are about all
such functions.

Left out: keys (events are compared by id, C01 is about the order), the pages of
tables and the bytes of regions (C07, C08, C15-C19, C77), what other threads do
and waiting for them (C31, C59), writes while the cursor is open (C30).
-/
namespace Verif.Scan

/-- `struct Event`, engine/io/event.h, without the key: id, EVENT_DELETE, value. -/
structure Ev where
  id : Nat
  del : Bool
  val : Nat
deriving DecidableEq, Repr

/-- The file of a partition: `compression` and `encryption` of `struct Index`
(engine/io/index.h), and the events of each region. -/
structure PFile where
  compression : Nat
  encryption : Nat
  regions : List (List Ev)
deriving DecidableEq, Repr

/-- What a cursor reads of a partition: bounds of its slice, the two tables in the
order of part_memtable (engine/io/part.h:84-92), the file unless `state` is
ID_NONE. -/
structure Part where
  min : Nat
  max : Nat
  a : List Ev
  b : List Ev
  file : Option PFile
deriving DecidableEq, Repr

/-- The pieces of memory of a cursor: the handle, the copy of the key
(main/api/monotone.c:174, 188), the list of the merge iterator
(engine/io/merge_iterator.h:28), the three buffers of the reader
(engine/io/reader.h:22-24). -/
inductive Mem where
  | handle | key | list | buf | decrypted | decompressed
deriving DecidableEq, Repr

/-- What is taken and given back.  `table i`: the cursor is in the list of
iterators of the table of partition `i` (engine/io/memtable_iterator.h:51-55). -/
inductive Thing where
  | control
  | mutex
  | access (i : Nat)
  | table (i : Nat)
  | compression (k : Nat)
  | encryption (k : Nat)
  | mem (m : Mem)
deriving DecidableEq, Repr

/-- One entry of the history. -/
inductive Act where
  | take (t : Thing)
  | give (t : Thing)
deriving DecidableEq, Repr

/-- The sources of the merge iterator: the three iterators of `struct PartCursor`,
engine/io/part_cursor.h:17-24. -/
inductive Src where
  | a | b | file
deriving DecidableEq, Repr

/-- `struct MemtableIterator`, engine/io/memtable_iterator.h:17-25: the events from
`current` on, and the table whose list it is linked to. -/
structure MIt where
  rest : List Ev
  link : Option Nat
deriving DecidableEq, Repr

/-- `struct PartIterator`, engine/io/part_iterator.h:17-25, with its reader
(engine/io/reader.h:17-25): the events from `current` of the region iterator on,
the regions from `current` of the index iterator on, the file read, the contexts
held. -/
structure PIt where
  region : List Ev
  index : List (List Ev)
  part : Option PFile
  compression : Option Nat
  encryption : Option Nat
deriving DecidableEq, Repr

/-- `struct EngineCursor`, engine/engine/engine_cursor.h:17-22, `struct PartCursor`
and `struct MergeIterator` (engine/io/merge_iterator.h:24-31).  `ref`: number and
contents of the partition; `list`: sources and their `advance`; `cap`: room in the
list, in entries; `bufs`: buffers of the reader whose `start` is not NULL. -/
structure Cur where
  ref : Option (Nat × Part)
  a : MIt
  b : MIt
  file : PIt
  list : List (Src × Bool)
  cap : Nat
  current : Option Src
  bufs : List Mem
deriving DecidableEq, Repr

/-- Number of the next step that may fail, history, cursor. -/
structure St where
  tick : Nat
  tr : List Act
  cur : Cur
deriving DecidableEq, Repr

/-- How a computation ends: with a result, by `error()`, or not within the number
of turns given to its loops. -/
inductive Out (α : Type) where
  | ok (a : α) (s : St)
  | throw (s : St)
  | spin
deriving DecidableEq, Repr

/-- A computation; the function tells which steps fail. -/
def M (α : Type) : Type := (Nat → Bool) → St → Out α

def M.pure {α : Type} (a : α) : M α := fun _ s => .ok a s

def M.bind {α β : Type} (x : M α) (k : α → M β) : M β := fun f s =>
  match x f s with
  | .ok a s => k a f s
  | .throw s => .throw s
  | .spin => .spin

instance : Monad M where
  pure := M.pure
  bind := M.bind

/-- `if (enter(&e)) { x } if (leave(&e))`, runtime/runtime/exception.h. -/
def attempt {α : Type} (x : M α) : M (Option α) := fun f s =>
  match x f s with
  | .ok a s => .ok (some a) s
  | .throw s => .ok none s
  | .spin => .spin

/-- `guard(fin, …)`: `fin` is called when the block is left, or by `error()`
(runtime/runtime/guard.h, exception_mgr_execute_guards in exception.h; C50). -/
def guarded {α : Type} (x : M α) (fin : M Unit) : M α := fun f s =>
  match x f s with
  | .ok a s => (match fin f s with
    | .ok _ s => .ok a s
    | .throw s => .throw s
    | .spin => .spin)
  | .throw s => (match fin f s with
    | .ok _ s => .throw s
    | .throw s => .throw s
    | .spin => .spin)
  | .spin => .spin

/-- A loop that has had all its turns. -/
def spin {α : Type} : M α := fun _ _ => .spin

/-- A step that may fail: allocation (mn_malloc, mn_realloc, runtime/runtime/
allocator.h), creation of a context, reading, decrypting, decompressing. -/
def fallible : M Unit := fun f s =>
  if f s.tick then .throw { s with tick := s.tick + 1 } else .ok () { s with tick := s.tick + 1 }

def act (x : Act) : M Unit := fun _ s => .ok () { s with tr := s.tr ++ [x] }

def get : M Cur := fun _ s => .ok s.cur s

def modify (g : Cur → Cur) : M Unit := fun _ s => .ok () { s with cur := g s.cur }

/-! ### runtime/runtime/buf.h, for the buffers of the reader -/

/-- buf_reserve, runtime/runtime/buf.h:63-83; simplification: every call may fail,
not only one that has to grow. -/
def buf_reserve (m : Mem) : M Unit := do
  fallible
  let c ← get
  if m ∈ c.bufs then pure ()
  else do
    act (.take (.mem m))
    modify fun c => { c with bufs := m :: c.bufs }

/-- buf_free, runtime/runtime/buf.h:31-36; `start` keeps its value. -/
def buf_free (m : Mem) : M Unit := do
  let c ← get
  if m ∈ c.bufs then act (.give (.mem m)) else pure ()

/-! ### engine/io/reader.h -/

/-- compression_mgr_pop, runtime/lib/compression_mgr.c:36-54: NULL for an unknown
id.  Simplification: also a context from the cache counts as a step that may
fail. -/
def compression_pop (id : Nat) : M (Option Nat) :=
  if id = 1 ∨ id = 2 then do
    fallible
    act (.take (.compression id))
    pure (some id)
  else pure none

/-- encryption_mgr_pop, runtime/lib/encryption_mgr.c:36-46. -/
def encryption_pop (id : Nat) : M (Option Nat) :=
  if id = 1 then do
    fallible
    act (.take (.encryption id))
    pure (some id)
  else pure none

/-- reader_open, engine/io/reader.h:65-81. -/
def reader_open (p : PFile) : M Unit := do
  modify fun c => { c with file := { c.file with part := some p } }
  (if p.compression ≠ 0 then do
    let k ← compression_pop p.compression
    modify fun c => { c with file := { c.file with compression := k } }
  else pure ())
  (if p.encryption ≠ 0 then do
    let k ← encryption_pop p.encryption
    modify fun c => { c with file := { c.file with encryption := k } }
  else pure ())

/-- reader_reset, engine/io/reader.h:39-55. -/
def reader_reset : M Unit := do
  let c ← get
  (match c.file.compression with
  | some k => do
    act (.give (.compression k))
    modify fun c => { c with file := { c.file with compression := none } }
  | none => pure ())
  (match c.file.encryption with
  | some k => do
    act (.give (.encryption k))
    modify fun c => { c with file := { c.file with encryption := none } }
  | none => pure ())

/-- reader_free, engine/io/reader.h:57-63. -/
def reader_free : M Unit := do
  buf_free .buf
  buf_free .decrypted
  buf_free .decompressed

/-- reader_execute, engine/io/reader.h:83-143: reads the region, decrypts it,
decompresses it, compares it with the index.  Each of these may fail, and so may
the growing of a buffer before it. -/
def reader_execute (r : List Ev) : M (List Ev) := do
  buf_reserve .buf
  fallible
  let c ← get
  (if c.file.encryption.isSome then do
    buf_reserve .decrypted
    fallible
  else pure ())
  (if c.file.compression.isSome then do
    buf_reserve .decompressed
    fallible
  else pure ())
  fallible
  pure r

/-! ### engine/io/part_iterator.h -/

/-- Events from the key on: memtable_seek, region_iterator_search (C08, C17). -/
def seek (key : Option Nat) (l : List Ev) : List Ev :=
  match key with
  | none => l
  | some k => l.dropWhile fun e => e.id < k

/-- index_iterator_open, engine/io/index_iterator.h:54-81: the first region whose
last id is not below the key (C17). -/
def index_seek (key : Option Nat) (l : List (List Ev)) : List (List Ev) :=
  match key with
  | none => l
  | some k => l.dropWhile fun r => r.all fun e => e.id < k

/-- part_iterator_open_region, engine/io/part_iterator.h:28-39, of the region that
the index iterator is at. -/
def part_iterator_open_region (r : List Ev) (key : Option Nat) : M Unit := do
  let es ← reader_execute r
  modify fun c => { c with file := { c.file with region := seek key es } }

/-- part_iterator_open, engine/io/part_iterator.h:41-57. -/
def part_iterator_open (p : PFile) (key : Option Nat) : M Unit := do
  modify fun c => { c with file := { c.file with region := [], index := index_seek key p.regions } }
  let c ← get
  match c.file.index with
  | [] => pure ()
  | r :: _ => do
    reader_open p
    part_iterator_open_region r key

/-- The loop of part_iterator_next, engine/io/part_iterator.h:80-92, with the
regions from `current` on: the region read has no event left, so the next one is
read; an empty one is passed over. -/
def next_regions : List (List Ev) → M Unit
  | [] => pure ()
  | _ :: rest => do
    modify fun c => { c with file := { c.file with index := rest } }
    match rest with
    | [] => pure ()
    | r :: _ => do
      part_iterator_open_region r none
      let c ← get
      match c.file.region with
      | [] => next_regions rest
      | _ :: _ => pure ()

/-- part_iterator_next, engine/io/part_iterator.h:71-93. -/
def part_iterator_next : M Unit := do
  let c ← get
  match c.file.index with
  | [] => pure ()
  | _ :: _ => do
    modify fun c => { c with file := { c.file with region := c.file.region.tail } }
    match c.file.region.tail with
    | [] => next_regions c.file.index
    | _ :: _ => pure ()

/-! ### engine/io/merge_iterator.h -/

/-- iterator_at of a source: memtable_iterator_at (engine/io/memtable_iterator.h:
64-68), part_iterator_at (engine/io/part_iterator.h:65-69). -/
def row (c : Cur) : Src → Option Ev
  | .a => c.a.rest.head?
  | .b => c.b.rest.head?
  | .file => c.file.region.head?

/-- iterator_next of a source: memtable_iterator_next (engine/io/
memtable_iterator.h:70-93), part_iterator_next. -/
def source_next : Src → M Unit
  | .a => modify fun c => { c with a := { c.a with rest := c.a.rest.tail } }
  | .b => modify fun c => { c with b := { c.b with rest := c.b.rest.tail } }
  | .file => part_iterator_next

/-- merge_iterator_add, engine/io/merge_iterator.h:34-44; buf_reserve grows to
twice the capacity or to what is needed. -/
def merge_iterator_add (s : Src) : M Unit := do
  let c ← get
  (if c.list.length < c.cap then pure ()
  else do
    fallible
    (if c.cap = 0 then act (.take (.mem .list)) else pure ())
    modify fun c => { c with cap := if 2 * c.cap < c.list.length + 1 then c.list.length + 1 else 2 * c.cap })
  modify fun c => { c with list := c.list ++ [(s, false)] }

/-- The first loop of merge_iterator_next, engine/io/merge_iterator.h:71-79:
`list_count - pos` turns from `pos` on. -/
def advance : Nat → Nat → M Unit
  | 0, _ => pure ()
  | n + 1, pos => do
    let c ← get
    (match c.list[pos]? with
    | some (s, true) => do
      source_next s
      modify fun c => { c with list := c.list.set pos (s, false) }
    | some (_, false) => pure ()
    | none => pure ())
    advance n (pos + 1)

/-- The second loop of merge_iterator_next, engine/io/merge_iterator.h:82-110: the
sources from `pos` on, the least event so far and the source it is from. -/
def choose (row : Src → Option Ev) : Nat → Nat → List (Src × Bool) → Option (Src × Ev) →
    List (Src × Bool) × Option (Src × Ev)
  | 0, _, l, m => (l, m)
  | n + 1, pos, l, m =>
    match l[pos]? with
    | none => (l, m)
    | some (s, _) =>
      match row s with
      | none => choose row n (pos + 1) l m
      | some e =>
        match m with
        | none => choose row n (pos + 1) (l.set pos (s, true)) (some (s, e))
        | some (ms, me) =>
          if me.id = e.id then choose row n (pos + 1) (l.set pos (s, true)) (some (ms, me))
          else if e.id < me.id then
            choose row n (pos + 1) ((l.map fun x => (x.1, false)).set pos (s, true)) (some (s, e))
          else choose row n (pos + 1) l (some (ms, me))

/-- merge_iterator_next, engine/io/merge_iterator.h:67-112. -/
def merge_iterator_next : M Unit := do
  let c ← get
  advance c.list.length 0
  modify fun c =>
    let r := choose (row c) c.list.length 0 c.list none
    { c with list := r.1, current := r.2.map fun x => x.1 }

/-- merge_iterator_at, engine/io/merge_iterator.h:59-65. -/
def at_ (c : Cur) : Option Ev :=
  match c.current with
  | none => none
  | some s => row c s

/-! ### engine/io/part_cursor.h -/

/-- memtable_iterator_open, engine/io/memtable_iterator.h:28-56, with `attach`, on
the table of partition `i`. -/
def open_a (i : Nat) (l : List Ev) (key : Option Nat) : M Unit := do
  modify fun c => { c with a := { c.a with rest := seek key l } }
  match seek key l with
  | [] => pure ()
  | _ :: _ => do
    act (.take (.table i))
    modify fun c => { c with a := { c.a with link := some i } }

/-- memtable_iterator_open without `attach`. -/
def open_b (l : List Ev) (key : Option Nat) : M Unit :=
  modify fun c => { c with b := { c.b with rest := seek key l } }

/-- part_cursor_open, engine/io/part_cursor.h:26-54. -/
def part_cursor_open (i : Nat) (p : Part) (key : Option Nat) : M Unit := do
  (match p.a with
  | [] => pure ()
  | _ :: _ => do
    open_a i p.a key
    merge_iterator_add .a)
  (match p.b with
  | [] => pure ()
  | _ :: _ => do
    open_b p.b key
    merge_iterator_add .b)
  (match p.file with
  | none => pure ()
  | some f => do
    part_iterator_open f key
    merge_iterator_add .file)
  merge_iterator_next

/-- memtable_iterator_close, engine/io/memtable_iterator.h:105-116, of the first
iterator; the second is never linked. -/
def close_a : M Unit := do
  let c ← get
  (match c.a.link with
  | some i => act (.give (.table i))
  | none => pure ())
  modify fun c => { c with a := ⟨[], none⟩ }

/-- part_cursor_close and part_cursor_reset, engine/io/part_cursor.h:85-101;
part_iterator_reset, engine/io/part_iterator.h:102-107, keeps the index iterator;
merge_iterator_reset, engine/io/merge_iterator.h:120-127, keeps the room of the
list. -/
def part_cursor_close : M Unit := do
  close_a
  modify fun c => { c with b := ⟨[], none⟩ }
  reader_reset
  modify fun c => { c with file := { c.file with region := [] }, list := [], current := none }

/-- part_cursor_free, engine/io/part_cursor.h:103-109, with part_iterator_free
(engine/io/part_iterator.h:95-100) and merge_iterator_free (engine/io/
merge_iterator.h:114-118). -/
def part_cursor_free : M Unit := do
  reader_reset
  reader_free
  let c ← get
  if c.cap = 0 then pure () else act (.give (.mem .list))

/-! ### engine/engine/engine_cursor.h -/

/-- mapping_gte, engine/io/mapping.h:139-148 (C03), on the partitions in ascending
order. -/
def gte : List Part → Nat → Nat → Option (Nat × Part)
  | [], _, _ => none
  | p :: ps, i, min => if min ≤ p.max then some (i, p) else gte ps (i + 1) min

/-- engine_lock, engine/engine/engine.c:108-168, with `gte` and without
`create_if_not_exists`: nothing in it fails.  Without a partition both locks are
given back by their guards. -/
def engine_lock (ps : List Part) (min : Nat) : M (Option (Nat × Part)) := do
  act (.take .control)
  act (.take .mutex)
  match gte ps 0 min with
  | none => do
    act (.give .mutex)
    act (.give .control)
    pure none
  | some (i, p) => do
    act (.take (.access i))
    act (.give .mutex)
    pure (some (i, p))

/-- engine_unlock, engine/engine/engine.c:170-180. -/
def engine_unlock (i : Nat) : M Unit := do
  act (.take .mutex)
  act (.give (.access i))
  act (.give .control)
  act (.give .mutex)

/-- engine_cursor_open_part, engine/engine/engine_cursor.h:24-37. -/
def open_part (ps : List Part) (min : Nat) (key : Option Nat) : M Unit := do
  let r ← engine_lock ps min
  modify fun c => { c with ref := r }
  match r with
  | none => pure ()
  | some (i, p) => part_cursor_open i p key

/-- engine_cursor_next, engine/engine/engine_cursor.h:89-110; `slice.max + 1`
wraps at 2^64. -/
def engine_cursor_next (ps : List Part) : M Unit := do
  let c ← get
  match c.ref with
  | none => pure ()
  | some (i, p) => do
    merge_iterator_next
    let c ← get
    match c.current with
    | some _ => pure ()
    | none => do
      part_cursor_close
      engine_unlock i
      modify fun c => { c with ref := none }
      open_part ps ((p.max + 1) % 2 ^ 64) none

/-- engine_cursor_open, engine/engine/engine_cursor.h:42-57. -/
def engine_cursor_open (ps : List Part) (key : Option Nat) : M Unit := do
  modify fun c => { c with ref := none }
  open_part ps (match key with | some k => k | none => 0) key
  let c ← get
  match c.ref, c.current with
  | some _, none => engine_cursor_next ps
  | some _, some _ => pure ()
  | none, _ => pure ()

/-- engine_cursor_reset, engine/engine/engine_cursor.h:59-69. -/
def engine_cursor_reset : M Unit := do
  part_cursor_close
  let c ← get
  match c.ref with
  | some (i, _) => do
    engine_unlock i
    modify fun c => { c with ref := none }
  | none => pure ()

/-- engine_cursor_close, engine/engine/engine_cursor.h:71-76. -/
def engine_cursor_close : M Unit := do
  engine_cursor_reset
  part_cursor_free

/-- engine_cursor_skip_deletes, engine/engine/engine_cursor.h:112-123, at most so
many turns. -/
def skip_deletes (ps : List Part) : Nat → M Unit
  | 0 => spin
  | n + 1 => do
    let c ← get
    match c.ref with
    | none => pure ()
    | some _ =>
      match at_ c with
      | some e => (if e.del then do
          engine_cursor_next ps
          skip_deletes ps n
        else pure ())
      | none => do
        engine_cursor_next ps
        skip_deletes ps n

/-! ### main/api/monotone.c -/

/-- engine_cursor_init, engine/engine/engine_cursor.h:125-131. -/
def fresh : Cur := ⟨none, ⟨[], none⟩, ⟨[], none⟩, ⟨[], [], none, none, none⟩, [], 0, none, []⟩

/-- The first block of monotone_cursor, main/api/monotone.c:182-193. -/
def cursor_body (ps : List Part) (fuel : Nat) (key : Option Nat) : M Unit := do
  (match key with
  | none => engine_cursor_open ps none
  | some k => do
    fallible
    act (.take (.mem .key))
    guarded (engine_cursor_open ps (some k)) (act (.give (.mem .key))))
  skip_deletes ps fuel

/-- monotone_cursor, main/api/monotone.c:167-210: whether a cursor is returned. -/
def monotone_cursor (ps : List Part) (fuel : Nat) (key : Option Nat) : M Bool := do
  match ← attempt fallible with
  | none => pure false
  | some _ => do
    act (.take (.mem .handle))
    modify fun _ => fresh
    match ← attempt (cursor_body ps fuel key) with
    | some _ => pure true
    | none => do
      let _ ← attempt (do
        engine_cursor_close
        act (.give (.mem .handle)))
      pure false

/-- monotone_read, main/api/monotone.c:212-244: the event when it returns 1, none
when it returns 0. -/
def monotone_read : M (Option Ev) := do
  let c ← get
  match at_ c with
  | some e => if e.del then pure none else pure (some e)
  | none => pure none

/-- What monotone_next returns: 1, 0 or -1. -/
inductive Rc where
  | one | zero | failed
deriving DecidableEq, Repr

/-- monotone_next, main/api/monotone.c:246-261. -/
def monotone_next (ps : List Part) (fuel : Nat) : M Rc := do
  let r ← attempt (do
    engine_cursor_next ps
    skip_deletes ps fuel
    let c ← get
    pure c.ref.isSome)
  match r with
  | some true => pure .one
  | some false => pure .zero
  | none => pure .failed

/-- monotone_free of a cursor, main/api/monotone.c:84-96, 111-112. -/
def monotone_free : M Unit := do
  let _ ← attempt engine_cursor_close
  act (.give (.mem .handle))

/-- A call of the application, and what it gets. -/
inductive Call where
  | next | read
deriving DecidableEq, Repr

inductive Reply where
  | next (r : Rc)
  | read (e : Option Ev)
deriving DecidableEq, Repr

def call (ps : List Part) (fuel : Nat) : Call → M Reply
  | .next => do
    let r ← monotone_next ps fuel
    pure (.next r)
  | .read => do
    let e ← monotone_read
    pure (.read e)

def calls (ps : List Part) (fuel : Nat) : List Call → M (List Reply)
  | [] => pure []
  | x :: xs => do
    let r ← call ps fuel x
    let rs ← calls ps fuel xs
    pure (r :: rs)

/-- An application that opens a cursor and makes some calls; none when it gets no
cursor. -/
def using_ (ps : List Part) (fuel : Nat) (key : Option Nat) (xs : List Call) : M (Option (List Reply)) := do
  if ← monotone_cursor ps fuel key then do
    let rs ← calls ps fuel xs
    pure (some rs)
  else pure none

/-- The same, and then frees the cursor. -/
def session (ps : List Part) (fuel : Nat) (key : Option Nat) (xs : List Call) : M (Option (List Reply)) := do
  match ← using_ ps fuel key xs with
  | none => pure none
  | some rs => do
    monotone_free
    pure (some rs)

/-- The beginning: nothing has happened. -/
def start : St := ⟨0, [], fresh⟩

end Verif.Scan
