import Verif.Model.Basic

/-! The connections of an S3 cloud: libcurl handles that are kept in a cache between
requests, and taken by any number of threads (cache.h, s3.c, s3_io.c).  A handle is
named by a number; libcurl may use the name of a handle that was cleaned up again.
A step is what happens between two points where other threads can come in: the
functions of the cache run under its spinlock.  The list is C66. -/

namespace Verif.Conn

/-- Where a request is (s3.c:62-215, the six functions have the same shape). -/
inductive Pc where
  | idle
  | empty               -- cache_pop gave NULL
  | held (h : Nat)      -- has a handle, before curl_easy_perform
  | run (h : Nat)       -- inside of curl_easy_perform
  | after (h : Nat) (ok : Bool)
  deriving DecidableEq

/-- `Cache` (cache.h:18-23), the handles of libcurl, and the requests. -/
structure St where
  list : List Nat
  count : Nat
  live : List Nat
  running : List Nat
  pc : Nat → Pc
  closed : Bool

/-- s3_create, s3.c:50-69. -/
def init : St :=
  { list := [], count := 0, live := [], running := [], pc := fun _ => .idle, closed := false }

/-- Request `r` is at `p` now. -/
def St.at (s : St) (r : Nat) (p : Pc) : St :=
  { s with pc := fun r' => if r' = r then p else s.pc r' }

/-- The steps.  `alloc` gives what curl_easy_init returns, `done` whether the request
succeeded. -/
inductive Ev where
  | pop (r : Nat)
  | alloc (r : Nat) (h : Option Nat)
  | begin (r : Nat)
  | done (r : Nat) (ok : Bool)
  | give (r : Nat)
  | drop (r : Nat)
  | close

/-- curl_easy_cleanup, s3_io.c:41-47. -/
def cleanup (h : Nat) (s : St) : Res St :=
  if h ∈ s.running then .ub "cleanup of a handle that is running"
  else if h ∈ s.live then .ok { s with live := s.live.erase h }
  else .ub "cleanup of a freed handle"

/-- The loop of s3_free, s3.c:22-27. -/
def cleanupAll : List Nat → St → Res St
  | [], s => .ok s
  | h :: hs, s => (cleanup h s).bind (cleanupAll hs)

/-- s3_get_io, s3.c:71-78: cache_pop, cache.h:51-64.  To pop from an empty list
gives the head of the list itself. -/
def pop (r : Nat) (s : St) : Res St :=
  match s.pc r with
  | .idle =>
    if s.count > 0 then
      match s.list with
      | [] => .ub "list_pop of an empty list"
      | h :: hs => .ok ({ s with list := hs, count := s.count - 1 }.at r (.held h))
    else .ok (s.at r .empty)
  | _ => .err "not there"

/-- s3_io_allocate, s3_io.c:25-39.  It fails without memory or a handle, and
throws; nothing was taken. -/
def alloc (r : Nat) (h : Option Nat) (s : St) : Res St :=
  match s.pc r, h with
  | .empty, none => .ok (s.at r .idle)
  | .empty, some h =>
    if h ∈ s.live then .err "not a new handle"
    else .ok ({ s with live := h :: s.live }.at r (.held h))
  | _, _ => .err "not there"

/-- s3_request_execute, s3_request.c:207-243: curl_easy_reset and the beginning of
curl_easy_perform.  A handle must not be used by two threads. -/
def start (r : Nat) (s : St) : Res St :=
  match s.pc r with
  | .held h =>
    if h ∈ s.running then .ub "handle used by two threads"
    else if h ∈ s.live then .ok ({ s with running := h :: s.running }.at r (.run h))
    else .ub "use of a freed handle"
  | _ => .err "not there"

/-- The end of curl_easy_perform, s3_request.c:243-250. -/
def done (r : Nat) (ok : Bool) (s : St) : Res St :=
  match s.pc r with
  | .run h => .ok ({ s with running := s.running.erase h }.at r (.after h ok))
  | _ => .err "not there"

/-- `unguard(); cache_push(&s3->cache, &io->link);`, s3.c:92-94 and so on,
cache.h:66-73. -/
def give (r : Nat) (s : St) : Res St :=
  match s.pc r with
  | .after h true =>
    if h ∈ s.list then .ub "list_append of a link that is in the list"
    else .ok ({ s with list := s.list ++ [h], count := s.count + 1 }.at r .idle)
  | _ => .err "not there"

/-- An exception: `guard(s3_io_free, io)`, s3.c:86 and so on.  It is thrown before the
request (s3_request_prepare), by the request, or after it (file_sync and fs_rename of a
download, s3.c:139-146). -/
def drop (r : Nat) (s : St) : Res St :=
  match s.pc r with
  | .held h => (cleanup h s).map (·.at r .idle)
  | .after h _ => (cleanup h s).map (·.at r .idle)
  | _ => .err "not there"

/-- One step.  The cloud is not there after s3_free (s3.c:19-31). -/
def step (s : St) (e : Ev) : Res St :=
  if s.closed then .ub "use of a freed cloud"
  else match e with
    | .pop r => pop r s
    | .alloc r h => alloc r h s
    | .begin r => start r s
    | .done r ok => done r ok s
    | .give r => give r s
    | .drop r => drop r s
    | .close => (cleanupAll s.list s).map fun s => { s with list := [], count := 0, closed := true }

end Verif.Conn
