import Verif.Model.Links

/-! C66: linked lists are sequences.

A memory has any number of lists and links that are in no list.  What an
operation does is said on sequences; the memory has to follow. -/
namespace Verif.C66
open Links

/-- In memory `b` comes after `a`. -/
def Edge (m : Mem) (a b : Ptr) : Prop := (∃ l, m a = some l ∧ l.next = b) ∧ ∃ l, m b = some l ∧ l.prev = a

/-- Each comes after the one before. -/
def Path (m : Mem) : List Ptr → Prop
  | a :: b :: l => Edge m a b ∧ Path m (b :: l)
  | _ => True

/-- The list with this head has these elements: forwards and backwards, from the
head to the head. -/
def Ring (m : Mem) (h : Ptr) (xs : List Ptr) : Prop := Path m (h :: xs ++ [h])

/-- Lists by their heads and the links that are in none. -/
structure World where
  lists : Ptr → Option (List Ptr)
  out : Ptr → Prop

/-- All links are different, and none is NULL. -/
structure Apart (w : World) : Prop where
  nodup : ∀ h xs, w.lists h = some xs → (h :: xs).Nodup
  lists : ∀ h xs h' xs', w.lists h = some xs → w.lists h' = some xs' → h ≠ h' → ∀ a ∈ h :: xs, a ∉ h' :: xs'
  out : ∀ h xs, w.lists h = some xs → ∀ a ∈ h :: xs, ¬ w.out a
  null : (∀ h xs, w.lists h = some xs → ∀ a ∈ h :: xs, a ≠ 0) ∧ ∀ a, w.out a → a ≠ 0

/-- The memory has these lists and links. -/
structure Has (m : Mem) (w : World) : Prop where
  apart : Apart w
  rings : ∀ h xs, w.lists h = some xs → Ring m h xs
  out : ∀ a, w.out a → ∃ l, m a = some l

/-- What can be done. -/
inductive Op where
  | init (x : Ptr)
  | append (h x : Ptr)
  | push (h x : Ptr)
  | unlink (x : Ptr)
  | pop (h : Ptr)

/-- What may be done: put links that are in no list into one, and take out links
that are in one. -/
def Allowed (w : World) : Op → Prop
  | .init x => w.out x
  | .append h x => w.out x ∧ ∃ xs, w.lists h = some xs
  | .push h x => w.out x ∧ ∃ xs, w.lists h = some xs
  | .unlink x => ∃ h xs, w.lists h = some xs ∧ x ∈ xs
  | .pop h => ∃ x xs, w.lists h = some (x :: xs)

/-- The lists with that of `h` changed. -/
def with_ (w : World) (h : Ptr) (f : List Ptr → List Ptr) : Ptr → Option (List Ptr) :=
  fun k => if k = h then (w.lists k).map f else w.lists k

/-- What it does, and the link returned by pop. -/
inductive Does (w : World) : Op → World → Option Ptr → Prop
  | init (x) : Does w (.init x) ⟨fun k => if k = x then some [] else w.lists k, fun a => w.out a ∧ a ≠ x⟩ none
  | append (h x) : Does w (.append h x) ⟨with_ w h (· ++ [x]), fun a => w.out a ∧ a ≠ x⟩ none
  | push (h x) : Does w (.push h x) ⟨with_ w h (x :: ·), fun a => w.out a ∧ a ≠ x⟩ none
  | unlink (h x xs ys) : w.lists h = some (xs ++ x :: ys) →
      Does w (.unlink x) ⟨with_ w h (fun _ => xs ++ ys), fun a => w.out a ∨ a = x⟩ none
  | pop (h x xs) : w.lists h = some (x :: xs) →
      Does w (.pop h) ⟨with_ w h (fun _ => xs), fun a => w.out a ∨ a = x⟩ (some x)

/-- The code. -/
def exec (m : Mem) : Op → Res (Mem × Option Ptr)
  | .init x => (list_init m x).bind fun m => .ok (m, none)
  | .append h x => (list_append m h x).bind fun m => .ok (m, none)
  | .push h x => (list_push m h x).bind fun m => .ok (m, none)
  | .unlink x => (list_unlink m x).bind fun m => .ok (m, none)
  | .pop h => (list_pop m h).bind fun (m, x) => .ok (m, some x)

/-- Many operations, each allowed when it is done. -/
inductive Run : World → List Op → World → List (Option Ptr) → Prop
  | nil (w) : Run w [] w []
  | cons (w op w' r ops w'' rs) : Allowed w op → Does w op w' r → Run w' ops w'' rs → Run w (op :: ops) w'' (r :: rs)

/-- The code for many operations. -/
def execAll (m : Mem) : List Op → Res (Mem × List (Option Ptr))
  | [] => .ok (m, [])
  | op :: ops => (exec m op).bind fun (m, r) => (execAll m ops).bind fun (m, rs) => .ok (m, r :: rs)

/-- C66 in full: operations do to the memory what they do to the sequences;
questions are answered and loops go through the list, once, in order; a safe
loop may remove and free what it is at; a cache whose count is right gives back
what was put into it, first in, first out, or nothing when it is empty. -/
def Full : Prop :=
  (∀ m w ops w' rs, Has m w → Run w ops w' rs → ∃ m', execAll m ops = .ok (m', rs) ∧ Has m' w') ∧
  ∀ m w h xs, Has m w → w.lists h = some xs →
    list_empty m h = .ok (decide (xs = [])) ∧
    (∀ x, list_is_last m h x = .ok true ∧ x ∈ xs ↔ ∃ ys, xs = ys ++ [x]) ∧
    (∀ x ∈ xs, ∃ b, list_is_last m h x = .ok b) ∧
    (∀ fuel, xs.length < fuel → list_foreach fuel m h (fun m _ => .ok m) = .ok (m, xs)) ∧
    (∀ fuel, xs.length < fuel → list_foreach_reverse fuel m h (fun m _ => .ok m) = .ok (m, xs.reverse)) ∧
    (∀ fuel sel, xs.length < fuel → ∃ m', list_foreach_safe fuel m h (remove sel) = .ok (m', xs) ∧
      Has m' ⟨with_ w h (·.filter (! sel ·)), w.out⟩) ∧
    (∀ x, w.out x → ∃ m', cache_push m h x xs.length = .ok (m', (xs ++ [x]).length) ∧
      Has m' ⟨with_ w h (· ++ [x]), fun a => w.out a ∧ a ≠ x⟩) ∧
    (xs = [] → cache_pop m h xs.length = .ok (m, 0, none)) ∧
    (∀ x ys, xs = x :: ys → ∃ m', cache_pop m h xs.length = .ok (m', ys.length, some x) ∧
      Has m' ⟨with_ w h (fun _ => ys), fun a => w.out a ∨ a = x⟩)

end Verif.C66
