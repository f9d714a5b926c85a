import Verif.Model.Basic

/-! Model of the lists in runtime/runtime/list.h: links that are part of other
objects, in memory. -/
namespace Verif
namespace Links

/-- `List*`; 0 is NULL. -/
abbrev Ptr := Nat

/-- `struct List`, list.h:18-22. -/
structure Link where
  next : Ptr
  prev : Ptr

/-- The links in memory; `none` where there is none. -/
abbrev Mem := Ptr → Option Link

/-- `p->next`. -/
def next (m : Mem) (p : Ptr) : Res Ptr :=
  match m p with
  | some l => .ok l.next
  | none => .ub "no link there"

/-- `p->prev`. -/
def prev (m : Mem) (p : Ptr) : Res Ptr :=
  match m p with
  | some l => .ok l.prev
  | none => .ub "no link there"

/-- `p->next = v`. -/
def setNext (m : Mem) (p v : Ptr) : Res Mem :=
  match m p with
  | some l => .ok fun q => if q = p then some { l with next := v } else m q
  | none => .ub "no link there"

/-- `p->prev = v`. -/
def setPrev (m : Mem) (p v : Ptr) : Res Mem :=
  match m p with
  | some l => .ok fun q => if q = p then some { l with prev := v } else m q
  | none => .ub "no link there"

/-- list_init, list.h:24-28. -/
def list_init (m : Mem) (self : Ptr) : Res Mem :=
  (setPrev m self self).bind fun m => setNext m self self

/-- list_empty, list.h:30-35. -/
def list_empty (m : Mem) (self : Ptr) : Res Bool :=
  (next m self).bind fun n => if n = self then (prev m self).bind fun p => .ok (p == self) else .ok false

/-- list_is_last, list.h:37-41. -/
def list_is_last (m : Mem) (self link : Ptr) : Res Bool :=
  (next m link).bind fun n => .ok (n == self)

/-- list_append, list.h:43-50. -/
def list_append (m : Mem) (self link : Ptr) : Res Mem :=
  (setNext m link self).bind fun m =>
  (prev m self).bind fun p => (setPrev m link p).bind fun m =>
  (prev m link).bind fun p => (setNext m p link).bind fun m =>
  (next m link).bind fun n => setPrev m n link

/-- list_unlink, list.h:52-57. -/
def list_unlink (m : Mem) (link : Ptr) : Res Mem :=
  (prev m link).bind fun p => (next m link).bind fun n => (setNext m p n).bind fun m =>
  (next m link).bind fun n => (prev m link).bind fun p => setPrev m n p

/-- list_push, list.h:59-66. -/
def list_push (m : Mem) (self link : Ptr) : Res Mem :=
  (next m self).bind fun n => (setNext m link n).bind fun m =>
  (setPrev m link self).bind fun m =>
  (prev m link).bind fun p => (setNext m p link).bind fun m =>
  (next m link).bind fun n => setPrev m n link

/-- list_pop, list.h:68-74. -/
def list_pop (m : Mem) (self : Ptr) : Res (Mem × Ptr) :=
  (next m self).bind fun pop => (list_unlink m pop).bind fun m => .ok (m, pop)

/-- The loop of list_foreach (`step` is `next`), list.h:76-77, and of
list_foreach_reverse (`prev`), list.h:87-88: the links that are visited.  `fuel`
limits the number of steps. -/
def foreachFrom (step : Mem → Ptr → Res Ptr) (list : Ptr) (body : Mem → Ptr → Res Mem) : Nat → Mem → Ptr → Res (Mem × List Ptr)
  | 0, _, _ => .abort "does not end"
  | fuel + 1, m, i =>
    if i = list then .ok (m, [])
    else
      (body m i).bind fun m => (step m i).bind fun j =>
      (foreachFrom step list body fuel m j).bind fun (m, l) => .ok (m, i :: l)

/-- list_foreach, list.h:76-77. -/
def list_foreach (fuel : Nat) (m : Mem) (list : Ptr) (body : Mem → Ptr → Res Mem) : Res (Mem × List Ptr) :=
  (next m list).bind fun i => foreachFrom next list body fuel m i

/-- list_foreach_reverse, list.h:87-88. -/
def list_foreach_reverse (fuel : Nat) (m : Mem) (list : Ptr) (body : Mem → Ptr → Res Mem) : Res (Mem × List Ptr) :=
  (prev m list).bind fun i => foreachFrom prev list body fuel m i

/-- The loop of list_foreach_safe, list.h:79-82: the next link is read before the
body (and ends the loop if it is NULL). -/
def foreachSafeFrom (list : Ptr) (body : Mem → Ptr → Res Mem) : Nat → Mem → Ptr → Res (Mem × List Ptr)
  | 0, _, _ => .abort "does not end"
  | fuel + 1, m, i =>
    if i = list then .ok (m, [])
    else
      (next m i).bind fun copy =>
      if copy = 0 then .ok (m, [])
      else
        (body m i).bind fun m =>
        (foreachSafeFrom list body fuel m copy).bind fun (m, l) => .ok (m, i :: l)

/-- list_foreach_safe, list.h:79-82. -/
def list_foreach_safe (fuel : Nat) (m : Mem) (list : Ptr) (body : Mem → Ptr → Res Mem) : Res (Mem × List Ptr) :=
  (next m list).bind fun i => foreachSafeFrom list body fuel m i

/-- The memory of an object is given back. -/
def free (m : Mem) (p : Ptr) : Mem := fun q => if q = p then none else m q

/-- The body of a loop that removes some elements and frees them, as in
cloud_mgr_free, storage_mgr_free, pipeline_free and others. -/
def remove (sel : Ptr → Bool) (m : Mem) (i : Ptr) : Res Mem :=
  if sel i then (list_unlink m i).bind fun m => .ok (free m i) else .ok m

/-- cache_pop, runtime/lib/cache.h:49-62; `self` is the head of `list` and `count`
is `list_count`, the lock is left out. -/
def cache_pop (m : Mem) (self : Ptr) (count : Int) : Res (Mem × Int × Option Ptr) :=
  if count > 0 then (list_pop m self).bind fun (m, obj) => .ok (m, count - 1, some obj)
  else .ok (m, count, none)

/-- cache_push, runtime/lib/cache.h:64-71. -/
def cache_push (m : Mem) (self obj : Ptr) (count : Int) : Res (Mem × Int) :=
  (list_append m self obj).bind fun m => .ok (m, count + 1)

end Links
end Verif
