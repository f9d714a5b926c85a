import Verif.Proofs.C78

/-! What a cursor reads, whatever fails. -/
namespace Verif.C78
open Verif.Scan

/-! ### Lists -/

theorem dropWhile_nil_iff {α : Type} (q : α → Bool) (l : List α) : l.dropWhile q = [] ↔ ∀ x ∈ l, q x = true := by
  induction l with
  | nil => simp
  | cons x l ih =>
    rw [List.dropWhile_cons]
    by_cases h : q x = true
    · rw [if_pos h, ih]; simp [h]
    · rw [if_neg h]; simp [h]

theorem dropWhile_flatten {α : Type} (q : α → Bool) (l : List (List α)) :
    l.flatten.dropWhile q = match l.dropWhile (fun r => r.all q) with
      | [] => []
      | r :: rs => r.dropWhile q ++ rs.flatten := by
  induction l with
  | nil => rfl
  | cons r l ih =>
    rw [List.flatten_cons, List.dropWhile_cons]
    by_cases h : r.all q = true
    · rw [if_pos h, ← ih, List.dropWhile_append]
      have : r.dropWhile q = [] := by
        rw [dropWhile_nil_iff]
        exact List.all_eq_true.1 h
      rw [this]; rfl
    · rw [if_neg h, List.dropWhile_append]
      have : (r.dropWhile q).isEmpty = false := by
        rw [List.isEmpty_eq_false_iff]
        intro e
        rw [dropWhile_nil_iff] at e
        exact h (List.all_eq_true.2 e)
      rw [this]; rfl

/-- The events of a sorted list from an id on. -/
def from_ (lo : Nat) (l : List Ev) : List Ev := l.filter fun e => lo ≤ e.id

theorem dropWhile_from {k : Nat} : ∀ {l : List Ev}, Ascending l → l.dropWhile (fun e => e.id < k) = from_ k l := by
  intro l
  induction l with
  | nil => intro _; rfl
  | cons e l ih =>
    intro h
    obtain ⟨h1, h2⟩ := List.pairwise_cons.1 h
    rw [List.dropWhile_cons]
    unfold from_ at *
    by_cases hk : e.id < k
    · rw [if_pos (by simpa using hk), ih h2, List.filter_cons, if_neg (by simp; omega)]
    · rw [if_neg (by simpa using hk), List.filter_cons, if_pos (by simp; omega)]
      congr 1
      symm
      rw [List.filter_eq_self]
      intro x hx
      have := h1 x hx
      simp; omega

theorem from_suffix {k : Nat} {l : List Ev} (h : Ascending l) : from_ k l <:+ l := by
  rw [← dropWhile_from h]; exact List.dropWhile_suffix _

theorem mem_from {k : Nat} {l : List Ev} {e : Ev} : e ∈ from_ k l ↔ e ∈ l ∧ k ≤ e.id := by
  simp [from_]

/-- Going on by one event. -/
theorem from_tail {m : Nat} {l : List Ev} {e : Ev} {r : List Ev} (h : Ascending l) (hf : from_ m l = e :: r)
    (he : e.id = m) : r = from_ (m + 1) l := by
  have h1 : from_ (m + 1) l = from_ (m + 1) (from_ m l) := by
    unfold from_
    rw [List.filter_filter]
    congr 1
    funext x
    rw [Bool.eq_iff_iff]
    simp; omega
  have hasc : Ascending (e :: r) := by rw [← hf]; exact List.Pairwise.sublist List.filter_sublist h
  rw [h1, hf]
  unfold from_
  rw [List.filter_cons, if_neg (by simp; omega)]
  symm
  rw [List.filter_eq_self]
  intro x hx
  have := (List.pairwise_cons.1 hasc).1 x hx
  simp; omega

/-- Nothing is passed over. -/
theorem from_skip {m lo : Nat} {l : List Ev} (hlo : lo ≤ m) (h : ∀ e ∈ from_ lo l, m ≤ e.id) :
    from_ lo l = from_ m l := by
  unfold from_ at *
  apply List.filter_congr
  intro e he
  rw [Bool.eq_iff_iff]
  simp
  constructor
  · intro h1
    exact h e (List.mem_filter.2 ⟨he, by simpa using h1⟩)
  · omega

/-! ### Sources -/

/-- What a source still has. -/
def rest (c : Cur) : Src → List Ev
  | .a => c.a.rest
  | .b => c.b.rest
  | .file => c.file.region ++ c.file.index.tail.flatten

/-- All it has. -/
def whole (p : Part) : Src → List Ev
  | .a => p.a
  | .b => p.b
  | .file => stored p

/-- The sources of a partition, the newest first. -/
def srcs (p : Part) : List Src :=
  (match p.a with | [] => [] | _ :: _ => [.a]) ++
  ((match p.b with | [] => [] | _ :: _ => [.b]) ++
  (match p.file with | none => [] | some _ => [.file]))

/-- The events of a source from `lo` on; of the file perhaps fewer, unless `x`. -/
def Exact (p : Part) (lo : Nat) (x : Bool) (s : Src) (l : List Ev) : Prop :=
  (s ≠ .file ∨ x = true → l = from_ lo (whole p s)) ∧ l <:+ whole p s ∧ ∀ e ∈ l, lo ≤ e.id

theorem Exact.weak {p lo x s l} (h : Exact p lo x s l) : Exact p lo false s l :=
  ⟨fun e => h.1 (e.imp id (fun e => by cases e)), h.2⟩

/-- The iterator stands at an event, if there is one. -/
def Tidy (c : Cur) (s : Src) : Prop := s = .file → c.file.region = [] → rest c .file = []

/-- A source before merge_iterator_next: it has what it should have, after going on
if it is to go on. -/
def Bef (p : Part) (lo : Nat) (x : Bool) (c : Cur) : Src × Bool → Prop
  | (s, false) => Exact p lo x s (rest c s) ∧ Tidy c s
  | (.file, true) => Exact p lo x .file (c.file.region.tail ++ c.file.index.tail.flatten) ∧
      (c.file.index = [] → c.file.region = [])
  | (s, true) => Exact p lo x s (rest c s).tail

/-- The sources of the list. -/
def Listed (p : Part) (x : Bool) (c : Cur) : Prop :=
  c.list.map Prod.fst <+: srcs p ∧ (x = true → c.list.map Prod.fst = srcs p)

def Pre (p : Part) (lo : Nat) (x : Bool) (c : Cur) : Prop :=
  Listed p x c ∧ (∀ y ∈ c.list, Bef p lo x c y) ∧ (.file ∈ c.list.map Prod.fst → c.file.index = [] → c.file.region = [])

theorem srcs_cases (p : Part) : srcs p ∈ [[], [.a], [.b], [.file], [.a, .b], [.a, .file], [.b, .file],
    [Src.a, .b, .file]] := by
  unfold srcs
  split <;> split <;> split <;> simp

theorem listed_cases {p x c} (h : Listed p x c) : c.list.map Prod.fst ∈ [[], [.a], [.b], [.file], [.a, .b],
    [.a, .file], [.b, .file], [Src.a, .b, .file]] := by
  obtain ⟨⟨t, ht⟩, _⟩ := h
  generalize c.list.map Prod.fst = l at *
  have := srcs_cases p
  rw [← ht] at this
  simp only [List.mem_cons, List.not_mem_nil, or_false] at this ⊢
  rcases this with e | e | e | e | e | e | e | e <;>
  · match l, e with
    | [], _ => simp
    | [a], e => simp_all
    | [a, b], e => simp_all
    | [a, b, d], e => simp_all
    | a :: b :: d :: f :: l, e => simp_all

theorem srcs_nodup (p : Part) : (srcs p).Nodup := by
  have := srcs_cases p
  simp only [List.mem_cons, List.not_mem_nil, or_false] at this
  rcases this with e | e | e | e | e | e | e | e <;> rw [e] <;> decide

theorem listed_nodup {p x c} (h : Listed p x c) : (c.list.map Prod.fst).Nodup :=
  (srcs_nodup p).sublist h.1.sublist

/-! ### The second loop of merge_iterator_next -/

def ord : Src → Nat
  | .a => 0
  | .b => 1
  | .file => 2

/-- What the loop finds: the least event, of the newest source that has it, and who
is to go on. -/
def Found (row : Src → Option Ev) (l : List Src) (r : List (Src × Bool) × Option (Src × Ev)) : Prop :=
  match r.2 with
  | none => (∀ s ∈ l, row s = none) ∧ r.1 = l.map fun s => (s, false)
  | some (s, e) => s ∈ l ∧ row s = some e ∧
      (∀ s' ∈ l, ∀ e', row s' = some e' → e.id ≤ e'.id ∧ (e'.id = e.id → ord s ≤ ord s')) ∧
      r.1 = l.map fun s' => (s', match row s' with | none => false | some e' => decide (e'.id = e.id))

theorem choose_found (row : Src → Option Ev) (l : List Src)
    (hl : l ∈ [[], [.a], [.b], [.file], [.a, .b], [.a, .file], [.b, .file], [Src.a, .b, .file]]) :
    Found row l (choose row l.length 0 (l.map fun s => (s, false)) none) := by
  simp only [List.mem_cons, List.not_mem_nil, or_false] at hl
  generalize ha : row .a = ra
  generalize hb : row .b = rb
  generalize hf : row .file = rf
  rcases hl with e | e | e | e | e | e | e | e <;> subst e <;> cases ra <;> cases rb <;> cases rf <;>
    simp only [choose, List.map_cons, List.map_nil, List.length_cons, List.length_nil, List.getElem?_cons_zero,
      List.getElem?_cons_succ, List.getElem?_nil, List.set_cons_zero, List.set_cons_succ, ha, hb, hf] <;>
    (repeat' split) <;> simp_all [Found, ord] <;> omega

/-! ### The file -/

/-- Up to the buffers and the contexts. -/
def Like (c : Cur) (s : St) : Prop :=
  ∃ bs cm en pt, s.cur = { c with bufs := bs, file := { c.file with compression := cm, encryption := en, part := pt } }

theorem like_refl {c : Cur} {s : St} (h : s.cur = c) : Like c s := ⟨_, _, _, _, h⟩

theorem r_fallible {c} : Tri (Like c) fallible (fun _ => Like c) (Like c) := t_fallible fun _ h => h

theorem r_act {c E} {y : Act} : Tri (Like c) (act y) (fun _ => Like c) E := tri_act fun _ h => h

theorem r_buf_reserve {c m} : Tri (Like c) (buf_reserve m) (fun _ => Like c) (Like c) := by
  unfold buf_reserve
  refine tri_bind _ r_fallible fun _ => tri_bind (fun _ => Like c) tri_get' fun d => ?_
  split
  · exact tri_pure fun _ h => h
  · refine tri_bind _ r_act fun _ => tri_modify fun s h => ?_
    obtain ⟨bs, cm, en, pt, h⟩ := h
    exact ⟨m :: bs, cm, en, pt, by rw [h]⟩

theorem r_reader_execute {c es} :
    Tri (Like c) (reader_execute es) (fun r s => r = es ∧ Like c s) (Like c) := by
  unfold reader_execute
  refine tri_bind _ r_buf_reserve fun _ => tri_bind _ r_fallible fun _ =>
    tri_bind (fun _ => Like c) tri_get' fun d => tri_bind (fun _ => Like c) ?_ fun _ =>
    tri_bind (fun _ => Like c) ?_ fun _ => tri_bind _ r_fallible fun _ => tri_pure fun _ h => ⟨rfl, h⟩
  · split
    · exact tri_bind _ r_buf_reserve fun _ => r_fallible
    · exact tri_pure fun _ h => h
  · split
    · exact tri_bind _ r_buf_reserve fun _ => r_fallible
    · exact tri_pure fun _ h => h

theorem r_open_region {c es key} : Tri (Like c) (part_iterator_open_region es key)
    (fun _ => Like { c with file := { c.file with region := seek key es } }) (Like c) := by
  unfold part_iterator_open_region
  refine tri_bind _ r_reader_execute fun r => tri_modify fun s h => ?_
  obtain ⟨rfl, bs, cm, en, pt, h⟩ := h
  exact ⟨bs, cm, en, pt, by rw [h]⟩

theorem r_reader_open {c p} : Tri (Like c) (reader_open p) (fun _ => Like c) (Like c) := by
  unfold reader_open
  refine tri_bind (fun _ => Like c) ?_ fun _ => tri_bind (fun _ => Like c) ?_ fun _ => ?_
  · refine tri_modify fun s h => ?_
    obtain ⟨bs, cm, en, pt, h⟩ := h
    exact ⟨bs, cm, en, some p, by rw [h]⟩
  · split
    · refine tri_bind (fun _ => Like c) ?_ fun k => tri_modify fun s h => ?_
      · unfold compression_pop
        split
        · exact tri_bind _ r_fallible fun _ => tri_bind _ r_act fun _ => tri_pure fun _ h => h
        · exact tri_pure fun _ h => h
      · obtain ⟨bs, cm, en, pt, h⟩ := h
        exact ⟨bs, k, en, pt, by rw [h]⟩
    · exact tri_pure fun _ h => h
  · split
    · refine tri_bind (fun _ => Like c) ?_ fun k => tri_modify fun s h => ?_
      · unfold encryption_pop
        split
        · exact tri_bind _ r_fallible fun _ => tri_bind _ r_act fun _ => tri_pure fun _ h => h
        · exact tri_pure fun _ h => h
      · obtain ⟨bs, cm, en, pt, h⟩ := h
        exact ⟨bs, cm, k, pt, by rw [h]⟩
    · exact tri_pure fun _ h => h

/-- The cursor with another place in the file. -/
def place (c : Cur) (r : List Ev) (i : List (List Ev)) : Cur :=
  { c with file := { c.file with region := r, index := i } }

theorem like_place {c r i s} {r' : List Ev} (h : Like (place c r i) s) :
    Like (place c r' i) { s with cur := { s.cur with file := { s.cur.file with region := r' } } } := by
  obtain ⟨bs, cm, en, pt, h⟩ := h
  exact ⟨bs, cm, en, pt, by rw [h]; rfl⟩

theorem like_place_index {c r i s} {i' : List (List Ev)} (h : Like (place c r i) s) :
    Like (place c r i') { s with cur := { s.cur with file := { s.cur.file with index := i' } } } := by
  obtain ⟨bs, cm, en, pt, h⟩ := h
  exact ⟨bs, cm, en, pt, by rw [h]; rfl⟩

theorem r_next_regions {c} : ∀ l, Tri (Like (place c [] l)) (next_regions l)
    (fun _ s => ∃ r i, Like (place c r i) s ∧ r ++ i.tail.flatten = l.tail.flatten ∧
      (r = [] → i.tail.flatten = []) ∧ (i = [] → r = []))
    (fun s => ∃ i, Like (place c [] i) s ∧ i.tail.flatten <:+ l.tail.flatten) := by
  intro l
  induction l with
  | nil => exact tri_pure fun s h => ⟨[], [], h, rfl, fun _ => rfl, fun _ => rfl⟩
  | cons x t ih =>
    unfold next_regions
    refine tri_bind (fun _ => Like (place c [] t)) (tri_modify fun s h => like_place_index h) fun _ => ?_
    cases t with
    | nil => exact tri_pure fun s h => ⟨[], [], h, rfl, fun _ => rfl, fun _ => rfl⟩
    | cons y t =>
      refine tri_bind (fun _ => Like (place c y (y :: t))) ?_ fun _ => tri_bind _ tri_get fun d => ?_
      · exact tri_weaken (r_open_region (c := place c [] (y :: t))) (fun _ h => h) (fun _ _ h => h)
          (fun s h => ⟨_, h, by simp⟩)
      · split
        · rename_i hr
          by_cases hy : y = []
          · subst hy
            exact tri_weaken ih (fun s h => h.1) (fun _ s h => h) (fun s h => h)
          · intro f s h
            obtain ⟨⟨bs, cm, en, pt, h1⟩, h2⟩ := h
            rw [← h2, h1] at hr; exact absurd hr hy
        · rename_i e l hr
          refine tri_pure fun s h => ⟨y, y :: t, h.1, by simp, fun e' => ?_, fun e' => by cases e'⟩
          obtain ⟨⟨bs, cm, en, pt, h1⟩, h2⟩ := h
          rw [← h2, h1] at hr
          rw [e'] at hr; cases hr

theorem r_part_next {c : Cur} (hi : c.file.index = [] → c.file.region = []) :
    Tri (Like c) part_iterator_next
    (fun _ s => ∃ r i, Like (place c r i) s ∧ r ++ i.tail.flatten = c.file.region.tail ++ c.file.index.tail.flatten ∧
      (r = [] → i.tail.flatten = []) ∧ (i = [] → r = []))
    (fun s => ∃ i, Like (place c [] i) s ∧ i.tail.flatten <:+ c.file.index.tail.flatten ∧ c.file.region.tail = []) := by
  have hc : Like c = Like (place c c.file.region c.file.index) := rfl
  rw [hc]
  unfold part_iterator_next
  refine tri_bind _ tri_get fun d => ?_
  split
  · rename_i hd
    refine tri_pure fun s h => ?_
    have hx : c.file.index = [] := by
      obtain ⟨⟨bs, cm, en, pt, h1⟩, h2⟩ := h
      rw [← h2, h1] at hd; exact hd
    exact ⟨c.file.region, c.file.index, h.1, by rw [hi hx]; rfl, fun _ => by rw [hx]; rfl, hi⟩
  · rename_i y t hd
    refine tri_pre fun s0 h0 => ?_
    have hreg : d.file.region = c.file.region := by
      obtain ⟨⟨bs, cm, en, pt, h1⟩, h2⟩ := h0
      rw [← h2, h1]; rfl
    have hidx : d.file.index = c.file.index := by
      obtain ⟨⟨bs, cm, en, pt, h1⟩, h2⟩ := h0
      rw [← h2, h1]; rfl
    refine tri_bind (fun _ => Like (place c c.file.region.tail c.file.index)) (tri_modify fun s h => ?_) fun _ => ?_
    · rw [h]
      have := like_place (r' := c.file.region.tail) h0.1
      rw [← hreg, ← h0.2] at this ⊢
      exact this
    · rw [hreg, hidx]
      split
      · rename_i ht
        rw [ht]
        refine tri_weaken (r_next_regions (c := c) c.file.index) (fun s h => h) (fun _ s h => by simpa using h)
          (fun s h => ?_)
        obtain ⟨i, h1, h2⟩ := h
        exact ⟨i, h1, h2, rfl⟩
      · rename_i e l ht
        refine tri_pure fun s h => ⟨_, _, h, rfl, fun e' => ?_, fun e' => ?_⟩
        · rw [ht] at e'; cases e'
        · rw [hi e']; rfl

/-! ### merge_iterator_next -/

theorem exact_suffix {p lo x l i} (h : Exact p lo x .file l) (hs : i <:+ l) : Exact p lo false .file i :=
  ⟨fun e => by rcases e with e | e <;> simp at e, hs.trans h.2.1, fun e he => h.2.2 e (hs.subset he)⟩

/-- Leaves alone what the merge iterator does not go on with. -/
def Apart (c d : Cur) : Prop := d.ref = c.ref ∧ d.list = c.list ∧ d.current = c.current

theorem bef_congr {p lo x} {c d : Cur} {y : Src × Bool} (h : Bef p lo x c y)
    (h1 : y.1 = .a → d.a.rest = c.a.rest) (h2 : y.1 = .b → d.b.rest = c.b.rest)
    (h3 : y.1 = .file → d.file.region = c.file.region ∧ d.file.index = c.file.index) : Bef p lo x d y := by
  obtain ⟨s, fl⟩ := y
  cases s with
  | a => cases fl <;> simp_all [Bef, rest, Tidy]
  | b => cases fl <;> simp_all [Bef, rest, Tidy]
  | file =>
    obtain ⟨h4, h5⟩ := h3 rfl
    cases fl <;> (simp only [Bef, rest, Tidy, h4, h5] at h ⊢; exact h)

theorem bef_weak {p lo x c y} (h : Bef p lo x c y) : Bef p lo false c y := by
  obtain ⟨s, fl⟩ := y
  cases fl with
  | false => exact ⟨h.1.weak, h.2⟩
  | true => cases s with
    | file => exact ⟨h.1.weak, h.2⟩
    | _ => exact Exact.weak h

theorem pre_weak {p lo x c} (h : Pre p lo x c) : Pre p lo false c :=
  ⟨⟨h.1.1, fun e => by cases e⟩, fun y hy => bef_weak (h.2.1 y hy), h.2.2⟩

/-- One source goes on. -/
theorem r_source_next {p lo x c sr} (h : Bef p lo x c (sr, true)) :
    Tri (fun s => s.cur = c) (source_next sr)
      (fun _ s => Apart c s.cur ∧ Bef p lo x s.cur (sr, false) ∧
        (sr ≠ .a → s.cur.a = c.a) ∧ (sr ≠ .b → s.cur.b = c.b) ∧
        (sr ≠ .file → s.cur.file = c.file) ∧ (sr = .file → s.cur.file.index = [] → s.cur.file.region = []))
      (fun s => sr = .file ∧ Apart c s.cur ∧ Bef p lo false s.cur (sr, true) ∧ s.cur.a = c.a ∧ s.cur.b = c.b ∧
        (s.cur.file.index = [] → s.cur.file.region = [])) := by
  cases sr with
  | a =>
    unfold source_next
    refine tri_modify fun s hs => ?_
    subst hs
    exact ⟨⟨rfl, rfl, rfl⟩, ⟨h, fun e => by cases e⟩, fun e => absurd rfl e, fun _ => rfl, fun _ => rfl,
      fun e => by cases e⟩
  | b =>
    unfold source_next
    refine tri_modify fun s hs => ?_
    subst hs
    exact ⟨⟨rfl, rfl, rfl⟩, ⟨h, fun e => by cases e⟩, fun _ => rfl, fun e => absurd rfl e, fun _ => rfl,
      fun e => by cases e⟩
  | file =>
    unfold source_next
    obtain ⟨he, hi⟩ := h
    refine tri_weaken (r_part_next (c := c) hi) (fun s h => like_refl h) (fun _ s hs => ?_) (fun s hs => ?_)
    · obtain ⟨r, i, ⟨bs, cm, en, pt, e⟩, h2, h3, h4⟩ := hs
      rw [e]
      refine ⟨⟨rfl, rfl, rfl⟩, ⟨?_, fun _ hr => ?_⟩, fun _ => rfl, fun _ => rfl, fun e => absurd rfl e, fun _ => h4⟩
      · show Exact p lo x .file (r ++ i.tail.flatten)
        rw [h2]; exact he
      · have hr : r = [] := hr
        show r ++ i.tail.flatten = []
        rw [hr, h3 hr]; rfl
    · obtain ⟨i, ⟨bs, cm, en, pt, e⟩, h2, h3⟩ := hs
      rw [e]
      refine ⟨rfl, ⟨rfl, rfl, rfl⟩, ⟨?_, fun _ => rfl⟩, rfl, rfl, fun _ => rfl⟩
      show Exact p lo false .file ([].tail ++ i.tail.flatten)
      rw [h3] at he
      exact exact_suffix he (by simpa using h2)

/-- Up to this place all have gone on. -/
def Done (pos : Nat) (l : List (Src × Bool)) : Prop := ∀ j, j < pos → ∀ y, l[j]? = some y → y.2 = false

theorem r_advance {p lo x r} : ∀ n pos, Tri (fun s => Pre p lo x s.cur ∧ s.cur.ref = r ∧ Done pos s.cur.list ∧
      s.cur.list.length = pos + n) (advance n pos)
    (fun _ s => Pre p lo x s.cur ∧ s.cur.ref = r ∧ ∀ y ∈ s.cur.list, y.2 = false)
    (fun s => Pre p lo false s.cur ∧ s.cur.ref = r) := by
  intro n
  induction n with
  | zero =>
    intro pos
    refine tri_pure fun s h => ⟨h.1, h.2.1, fun y hy => ?_⟩
    obtain ⟨j, hj⟩ := List.mem_iff_getElem?.1 hy
    refine h.2.2.1 j ?_ y hj
    have := (List.getElem?_eq_some_iff.1 hj).1
    omega
  | succ n ih =>
    intro pos
    unfold advance
    refine tri_bind _ tri_get fun c => tri_bind (fun _ s => Pre p lo x s.cur ∧ s.cur.ref = r ∧
      Done (pos + 1) s.cur.list ∧ s.cur.list.length = pos + 1 + n) ?_ fun _ => ih _
    split
    · rename_i sr hp
      refine tri_pre fun s0 h0 => ?_
      obtain ⟨⟨hpre, hr, hd, hl⟩, hc⟩ := h0
      subst hc
      have hb := hpre.2.1 _ (List.mem_of_getElem? hp)
      have hnd := listed_nodup hpre.1
      have hne : ∀ j y, j ≠ pos → s0.cur.list[j]? = some y → y.1 ≠ sr := by
        intro j y hj hy e
        have h1 : (s0.cur.list.map Prod.fst)[j]? = some sr := by rw [List.getElem?_map, hy]; simp [e]
        have h2 : (s0.cur.list.map Prod.fst)[pos]? = some sr := by rw [List.getElem?_map, hp]; rfl
        exact hj ((List.getElem?_inj (List.getElem?_eq_some_iff.1 h1).1 hnd).1 (h1.trans h2.symm))
      refine tri_bind _ (tri_weaken (r_source_next hb) (fun s h => by rw [h]) (fun _ _ h => h) (fun s h => ?_)) fun _ => ?_
      · obtain ⟨hf, ⟨h1, h2, h3⟩, h4, h5, h6, h7⟩ := h
        refine ⟨⟨⟨by rw [h2]; exact hpre.1.1, fun e => by cases e⟩, fun y hy => ?_, fun _ => h7⟩, by rw [h1]; exact hr⟩
        rw [h2] at hy
        obtain ⟨j, hj⟩ := List.mem_iff_getElem?.1 hy
        by_cases e : j = pos
        · rw [e, hp] at hj; injection hj with hj; rw [← hj]; exact h4
        · refine bef_congr (bef_weak (hpre.2.1 y hy)) (fun _ => by rw [h5]) (fun _ => by rw [h6]) (fun e' => ?_)
          exact absurd (e'.trans hf.symm) (hne j y e hj)
      · refine tri_modify fun s h => ?_
        obtain ⟨⟨h1, h2, h3⟩, h4, h5, h6, h7, h8⟩ := h
        have hget : ∀ j, (s.cur.list.set pos (sr, false))[j]? = if j = pos then some (sr, false) else s0.cur.list[j]? := by
          intro j
          rw [h2, List.getElem?_set]
          by_cases e : pos = j
          · rw [if_pos e, if_pos e.symm, if_pos (by omega)]
          · rw [if_neg e, if_neg (fun e' => e e'.symm)]
        have hmap : (s.cur.list.set pos (sr, false)).map Prod.fst = s0.cur.list.map Prod.fst := by
          apply List.ext_getElem?
          intro j
          rw [List.getElem?_map, List.getElem?_map, hget]
          by_cases e : j = pos
          · rw [if_pos e, e, hp]; rfl
          · rw [if_neg e]
        refine ⟨⟨⟨?_, fun e => ?_⟩, fun y hy => ?_, fun hm => ?_⟩, by rw [← hr, ← h1], fun j hj y hy => ?_, ?_⟩
        · show (s.cur.list.set pos (sr, false)).map Prod.fst <+: _
          rw [hmap]; exact hpre.1.1
        · show (s.cur.list.set pos (sr, false)).map Prod.fst = _
          rw [hmap]; exact hpre.1.2 e
        · obtain ⟨j, hj⟩ := List.mem_iff_getElem?.1 hy
          have hj' := (hget j).symm.trans hj
          by_cases e : j = pos
          · rw [if_pos e] at hj'; injection hj' with hj'; rw [← hj']
            exact bef_congr h4 (fun _ => rfl) (fun _ => rfl) (fun _ => ⟨rfl, rfl⟩)
          · rw [if_neg e] at hj'
            have hn := hne j y e hj'
            refine bef_congr (hpre.2.1 y (List.mem_of_getElem? hj')) (fun e' => ?_) (fun e' => ?_) (fun e' => ?_)
            · show s.cur.a.rest = _
              rw [h5 (fun e2 => hn (e'.trans e2.symm))]
            · show s.cur.b.rest = _
              rw [h6 (fun e2 => hn (e'.trans e2.symm))]
            · show s.cur.file.region = _ ∧ s.cur.file.index = _
              rw [h7 (fun e2 => hn (e'.trans e2.symm))]
              exact ⟨rfl, rfl⟩
        · show s.cur.file.index = [] → s.cur.file.region = []
          by_cases hf : sr = .file
          · exact h8 hf
          · rw [h7 hf]
            have hm : Src.file ∈ (s.cur.list.set pos (sr, false)).map Prod.fst := hm
            rw [hmap] at hm
            exact hpre.2.2 hm
        · have hj' := (hget j).symm.trans hy
          by_cases e : j = pos
          · rw [if_pos e] at hj'; injection hj' with hj'; rw [← hj']
          · rw [if_neg e] at hj'
            exact hd j (by omega) y hj'
        · show (s.cur.list.set pos (sr, false)).length = _
          rw [List.length_set, h2]; omega
    · rename_i sr hp
      refine tri_pure fun s h => ?_
      obtain ⟨⟨hpre, hr, hd, hl⟩, rfl⟩ := h
      refine ⟨hpre, hr, fun j hj y hy => ?_, by omega⟩
      by_cases e : j = pos
      · rw [e, hp] at hy; injection hy with hy; rw [← hy]
      · exact hd j (by omega) y hy
    · rename_i hp
      refine tri_pure fun s h => ?_
      obtain ⟨⟨hpre, hr, hd, hl⟩, rfl⟩ := h
      rw [List.getElem?_eq_none_iff] at hp
      omega

/-- After merge_iterator_next: the events before `lo` are done with; the one it is
at is the newest of its id, the least that is left, and the rest is what comes
after it. -/
def Stands (p : Part) (lo : Nat) (x : Bool) (c : Cur) : Prop :=
  match at_ c with
  | none => c.current = none ∧ Pre p lo x c ∧ (x = true → ∀ s, from_ lo (whole p s) = [])
  | some e => c.current ≠ none ∧ lo ≤ e.id ∧ Newest p e ∧ e.id ≤ p.max ∧ Pre p (e.id + 1) x c ∧
      (x = true → ∀ s, ∀ e' ∈ from_ lo (whole p s), e.id ≤ e'.id ∧ (e'.id = e.id → Newest p e' → e' = e))

theorem row_rest {c : Cur} {s : Src} (ht : Tidy c s) : row c s = (rest c s).head? := by
  cases s with
  | a => rfl
  | b => rfl
  | file =>
    unfold row rest
    cases hr : c.file.region with
    | nil =>
      have := ht rfl hr
      unfold rest at this
      rw [hr] at this
      rw [this]
    | cons e l => rfl

theorem whole_nil {p : Part} {s : Src} (h : s ∉ srcs p) : whole p s = [] := by
  unfold srcs at h
  cases s with
  | a => cases ha : p.a with
    | nil => exact ha
    | cons e l => rw [ha] at h; simp at h
  | b => cases hb : p.b with
    | nil => exact hb
    | cons e l => rw [hb] at h; simp at h
  | file => cases hf : p.file with
    | none => unfold whole stored; rw [hf]
    | some f => rw [hf] at h; simp at h

/-- The newer sources of one that is listed are listed. -/
theorem listed_before {p x c s s'} (h : Listed p x c) (hs : s ∈ c.list.map Prod.fst) (hs' : s' ∈ srcs p)
    (ho : ord s' < ord s) : s' ∈ c.list.map Prod.fst := by
  obtain ⟨⟨t, ht⟩, _⟩ := h
  have hc := srcs_cases p
  generalize c.list.map Prod.fst = l at *
  rw [← ht] at hs' hc
  simp only [List.mem_cons, List.not_mem_nil, or_false] at hc
  rcases List.mem_append.1 hs' with h | h
  · exact h
  · exfalso
    have hp : (l ++ t).Pairwise fun y z => ord y < ord z := by
      rcases hc with e | e | e | e | e | e | e | e <;> rw [e] <;> simp [ord]
    have := (List.pairwise_append.1 hp).2.2 s hs s' h
    omega

theorem asc_eq {l : List Ev} (h : Ascending l) {e e' : Ev} (h1 : e ∈ l) (h2 : e' ∈ l) (hi : e.id = e'.id) : e = e' := by
  induction l with
  | nil => cases h1
  | cons y l ih =>
    obtain ⟨ha, hb⟩ := List.pairwise_cons.1 h
    rcases List.mem_cons.1 h1 with e1 | e1 <;> rcases List.mem_cons.1 h2 with e2 | e2
    · rw [e1, e2]
    · have := ha _ e2; rw [e1] at hi; omega
    · have := ha _ e1; rw [e2] at hi; omega
    · exact ih hb e1 e2

theorem newest_unique {p : Part} {e e' : Ev} (ha : Ascending p.a) (hb : Ascending p.b) (hs : Ascending (stored p))
    (h : Newest p e) (h' : Newest p e') (hi : e'.id = e.id) : e' = e := by
  rcases h with h | ⟨h, h1⟩ | ⟨h, h1⟩ <;> rcases h' with k | ⟨k, k1⟩ | ⟨k, k1⟩
  · exact asc_eq ha k h hi
  · exact absurd hi.symm (k1 _ h)
  · exact absurd hi.symm (k1 _ (List.mem_append_left _ h))
  · exact absurd hi (h1 _ k)
  · exact asc_eq hb k h hi
  · exact absurd hi.symm (k1 _ (List.mem_append_right _ h))
  · exact absurd hi (h1 _ (List.mem_append_left _ k))
  · exact absurd hi (h1 _ (List.mem_append_right _ k))
  · exact asc_eq hs k h hi

/-- What `Proper` says about one partition. -/
def Sound (p : Part) : Prop :=
  p.max + 1 < 2 ^ 64 ∧ p.min ≤ p.max ∧ Ascending p.a ∧ Ascending p.b ∧ Ascending (stored p) ∧
    (∀ e ∈ p.a ++ p.b ++ stored p, p.min ≤ e.id ∧ e.id ≤ p.max) ∧
    ∀ f, p.file = some f → ∀ r ∈ f.regions, r ≠ []

theorem sound_whole {p : Part} (h : Sound p) (s : Src) : Ascending (whole p s) := by
  cases s
  · exact h.2.2.1
  · exact h.2.2.2.1
  · exact h.2.2.2.2.1

theorem sound_bounds {p : Part} (h : Sound p) {s : Src} {e : Ev} (he : e ∈ whole p s) : p.min ≤ e.id ∧ e.id ≤ p.max := by
  apply h.2.2.2.2.2.1
  cases s
  · exact List.mem_append_left _ (List.mem_append_left _ he)
  · exact List.mem_append_left _ (List.mem_append_right _ he)
  · exact List.mem_append_right _ he

/-- Every newest event is in some source, and the other way round for what no newer
source has. -/
theorem newest_of {p : Part} {s : Src} {e : Ev} (he : e ∈ whole p s)
    (hn : ∀ s', ord s' < ord s → ∀ y ∈ whole p s', y.id ≠ e.id) : Newest p e := by
  cases s with
  | a => exact .inl he
  | b => exact .inr (.inl ⟨he, fun y hy => hn .a (by decide) y hy⟩)
  | file =>
    refine .inr (.inr ⟨he, fun y hy => ?_⟩)
    rcases List.mem_append.1 hy with h | h
    · exact hn .a (by decide) y h
    · exact hn .b (by decide) y h

theorem newest_in {p : Part} {e : Ev} (h : Newest p e) : ∃ s, e ∈ whole p s := by
  rcases h with h | ⟨h, _⟩ | ⟨h, _⟩
  · exact ⟨.a, h⟩
  · exact ⟨.b, h⟩
  · exact ⟨.file, h⟩

/-- The second loop, in a state where all have gone on. -/
theorem choose_stands {p lo x} {c : Cur} (hp : Sound p) (h : Pre p lo x c) (hf : ∀ y ∈ c.list, y.2 = false) :
    Stands p lo x { c with list := (choose (row c) c.list.length 0 c.list none).1,
                           current := (choose (row c) c.list.length 0 c.list none).2.map Prod.fst } := by
  have hl : c.list = (c.list.map Prod.fst).map fun s => (s, false) := by
    rw [List.map_map]
    conv => lhs; rw [← List.map_id c.list]
    apply List.map_congr_left
    intro y hy
    have := hf y hy
    obtain ⟨s, fl⟩ := y
    simp only at this
    simp [this]
  have hfound := choose_found (row c) _ (listed_cases h.1)
  rw [List.length_map, ← hl] at hfound
  have hbef : ∀ s ∈ c.list.map Prod.fst, Exact p lo x s (rest c s) ∧ Tidy c s := by
    intro s hs
    obtain ⟨⟨s', fl⟩, hy, rfl⟩ := List.mem_map.1 hs
    have h1 := hf _ hy
    simp only at h1
    subst h1
    exact h.2.1 _ hy
  generalize hR : choose (row c) c.list.length 0 c.list none = R at *
  obtain ⟨l', m⟩ := R
  have hrest : ∀ s, rest { c with list := l', current := m.map Prod.fst } s = rest c s := by intro s; cases s <;> rfl
  have hrow : ∀ s, row { c with list := l', current := m.map Prod.fst } s = row c s := by intro s; cases s <;> rfl
  cases m with
  | none =>
    obtain ⟨h1, h2⟩ := hfound
    simp only at h2
    rw [← hl] at h2
    have hnil : ∀ s ∈ c.list.map Prod.fst, rest c s = [] := by
      intro s hs
      have := h1 s hs
      rw [row_rest (hbef s hs).2, List.head?_eq_none_iff] at this
      exact this
    refine ⟨rfl, ⟨?_, ?_, ?_⟩, fun hx s => ?_⟩
    · unfold Listed; simp only [h2]; exact h.1
    · intro y hy
      simp only [h2] at hy
      exact bef_congr (h.2.1 y hy) (fun _ => rfl) (fun _ => rfl) (fun _ => ⟨rfl, rfl⟩)
    · simp only [h2]; exact h.2.2
    · by_cases hs : s ∈ srcs p
      · rw [← h.1.2 hx] at hs
        rw [← (hbef s hs).1.1 (.inr hx)]
        exact hnil s hs
      · rw [whole_nil hs]; rfl
  | some q =>
    obtain ⟨s, e⟩ := q
    obtain ⟨hs, hrs, hmin, hl'⟩ := hfound
    simp only at hl'
    have hex := (hbef s hs).1
    have hhead : ∀ s' ∈ c.list.map Prod.fst, ∀ e' ∈ rest c s', ∃ e'' t, rest c s' = e'' :: t ∧ row c s' = some e'' ∧
        e''.id ≤ e'.id := by
      intro s' hs' e' he'
      have hr := row_rest (hbef s' hs').2
      cases hq : rest c s' with
      | nil => rw [hq] at he'; cases he'
      | cons e'' t =>
        rw [hq] at hr he'
        refine ⟨e'', t, rfl, hr, ?_⟩
        have hasc : Ascending (e'' :: t) := by
          rw [← hq]; exact List.Pairwise.sublist (hbef s' hs').1.2.1.sublist (sound_whole hp s')
        rcases List.mem_cons.1 he' with k | k
        · rw [k]; exact Nat.le_refl _
        · exact Nat.le_of_lt ((List.pairwise_cons.1 hasc).1 _ k)
    have hee : e ∈ rest c s := by
      rw [row_rest (hbef s hs).2] at hrs
      exact List.mem_of_head? hrs
    have hlo := hex.2.2 e hee
    have hwh : e ∈ whole p s := hex.2.1.subset hee
    have hnew : Newest p e := by
      refine newest_of hwh fun s' ho y hy hid => ?_
      have hsrc : s' ∈ srcs p := by
        apply Classical.byContradiction
        intro hn
        rw [whole_nil hn] at hy; cases hy
      have hs' := listed_before h.1 hs hsrc ho
      have hnf : s' ≠ .file := by
        intro e'
        rw [e'] at ho
        cases s <;> simp [ord] at ho
      have hr := (hbef s' hs').1.1 (.inl hnf)
      have hy' : y ∈ rest c s' := by rw [hr, mem_from]; exact ⟨hy, by omega⟩
      obtain ⟨e'', t, h1, h2, h3⟩ := hhead s' hs' y hy'
      have := hmin s' hs' e'' h2
      have := this.2 (by omega)
      omega
    have hcur : at_ { c with list := l', current := (some (s, e)).map Prod.fst } = some e := by
      show row _ s = some e
      rw [hrow]; exact hrs
    unfold Stands
    rw [hcur]
    refine ⟨by simp, hlo, hnew, (sound_bounds hp hwh).2, ⟨?_, ?_, ?_⟩, fun hx s' e' he' => ?_⟩
    · unfold Listed
      have : l'.map Prod.fst = c.list.map Prod.fst := by
        rw [hl', List.map_map]
        conv => rhs; rw [← List.map_id (c.list.map Prod.fst)]
        rfl
      simp only [this]
      exact h.1
    · intro y hy
      simp only [hl'] at hy
      obtain ⟨s', hs', rfl⟩ := List.mem_map.1 hy
      have hx' := (hbef s' hs').1
      have hge : ∀ e' ∈ rest c s', e.id ≤ e'.id := by
        intro e' he'
        obtain ⟨e'', t, h1, h2, h3⟩ := hhead s' hs' e' he'
        have := (hmin s' hs' e'' h2).1
        omega
      by_cases hfl : ∃ e', row c s' = some e' ∧ e'.id = e.id
      · obtain ⟨e', hr', hid⟩ := hfl
        simp only [hr', hid, decide_true]
        have hrr := row_rest (hbef s' hs').2
        rw [hr'] at hrr
        obtain ⟨t, ht⟩ : ∃ t, rest c s' = e' :: t := by
          cases hq : rest c s' with
          | nil => rw [hq] at hrr; cases hrr
          | cons z t => rw [hq] at hrr; injection hrr with hz; exact ⟨t, by rw [hz]⟩
        have hasc : Ascending (e' :: t) := by
          rw [← ht]; exact List.Pairwise.sublist hx'.2.1.sublist (sound_whole hp s')
        have hE : Exact p (e.id + 1) x s' t := by
          refine ⟨fun hc => ?_, ?_, fun z hz => ?_⟩
          · have h1 := hx'.1 hc
            have h2 : from_ lo (whole p s') = from_ e.id (whole p s') := from_skip hlo (by rw [← h1]; exact hge)
            rw [h2, ht] at h1
            exact from_tail (sound_whole hp s') h1.symm hid
          · have := hx'.2.1
            rw [ht] at this
            exact (List.suffix_cons e' t).trans this
          · have := (List.pairwise_cons.1 hasc).1 z hz
            omega
        cases s' with
        | a =>
          show Exact p (e.id + 1) x .a (rest c .a).tail
          rw [ht]; exact hE
        | b =>
          show Exact p (e.id + 1) x .b (rest c .b).tail
          rw [ht]; exact hE
        | file =>
          refine ⟨?_, h.2.2 hs'⟩
          show Exact p (e.id + 1) x .file (c.file.region.tail ++ c.file.index.tail.flatten)
          unfold row at hr'
          unfold rest at ht
          cases hreg : c.file.region with
          | nil => rw [hreg] at hr'; cases hr'
          | cons z r =>
            rw [hreg] at ht
            injection ht with _ ht
            have ht : r ++ c.file.index.tail.flatten = t := ht
            rw [List.tail_cons, ht]; exact hE
      · have hfalse : (match row c s' with | none => false | some e' => decide (e'.id = e.id)) = false := by
          cases hq : row c s' with
          | none => rfl
          | some e' =>
            simp only [decide_eq_false_iff_not]
            exact fun hid => hfl ⟨e', hq, hid⟩
        rw [hfalse]
        have hgt : ∀ e' ∈ rest c s', e.id + 1 ≤ e'.id := by
          intro e' he'
          obtain ⟨e'', t, h1, h2, h3⟩ := hhead s' hs' e' he'
          have := (hmin s' hs' e'' h2).1
          have : e''.id ≠ e.id := fun hid => hfl ⟨e'', h2, hid⟩
          omega
        refine bef_congr (c := c) (show Bef p (e.id + 1) x c (s', false) from ⟨⟨fun hc => ?_, hx'.2.1, hgt⟩, (hbef s' hs').2⟩)
          (fun _ => rfl) (fun _ => rfl) (fun _ => ⟨rfl, rfl⟩)
        rw [hx'.1 hc]
        exact from_skip (by omega) (by rw [← hx'.1 hc]; exact hgt)
    · intro hm
      apply h.2.2
      have : l'.map Prod.fst = c.list.map Prod.fst := by
        rw [hl', List.map_map]
        conv => rhs; rw [← List.map_id (c.list.map Prod.fst)]
        rfl
      rw [← this]; exact hm
    · have hsrc : s' ∈ srcs p := by
        apply Classical.byContradiction
        intro hn
        rw [whole_nil hn] at he'; cases he'
      rw [← h.1.2 hx] at hsrc
      rw [← (hbef s' hsrc).1.1 (.inr hx)] at he'
      obtain ⟨e'', t, h1, h2, h3⟩ := hhead s' hsrc e' he'
      have := (hmin s' hsrc e'' h2).1
      exact ⟨by omega, fun hid hn => newest_unique hp.2.2.1 hp.2.2.2.1 hp.2.2.2.2.1 hnew hn hid⟩

theorem r_merge_next {p lo x r} (hp : Sound p) :
    Tri (fun s => Pre p lo x s.cur ∧ s.cur.ref = r) merge_iterator_next
      (fun _ s => Stands p lo x s.cur ∧ s.cur.ref = r) (fun s => Pre p lo false s.cur ∧ s.cur.ref = r) := by
  unfold merge_iterator_next
  refine tri_bind _ tri_get fun c => tri_pre fun s0 h0 => ?_
  refine tri_bind _ (tri_weaken (r_advance (p := p) (lo := lo) (x := x) (r := r) c.list.length 0) (fun s h => ?_)
    (fun _ _ h => h) (fun _ h => h)) fun _ => tri_modify fun s h => ?_
  · rw [h]
    exact ⟨h0.1.1, h0.1.2, fun j hj => by omega, by rw [h0.2]; simp⟩
  · exact ⟨choose_stands hp h.1 h.2.2, h.2.1⟩

/-! ### Opening -/

/-- Where the cursor starts in a partition: at the key, or at its beginning. -/
def Begins (p : Part) (lo : Nat) (key : Option Nat) : Prop := key = some lo ∨ (key = none ∧ lo ≤ p.min)

theorem from_all {lo : Nat} {l : List Ev} (h : ∀ e ∈ l, lo ≤ e.id) : from_ lo l = l := by
  unfold from_
  rw [List.filter_eq_self]
  intro e he
  simpa using h e he

theorem seek_from {p lo key} (hp : Sound p) (hk : Begins p lo key) (s : Src) :
    seek key (whole p s) = from_ lo (whole p s) := by
  rcases hk with e | ⟨e, hl⟩ <;> subst e
  · exact dropWhile_from (sound_whole hp s)
  · exact (from_all fun e he => Nat.le_trans hl (sound_bounds hp he).1).symm

theorem r_part_open {p : Part} {f lo key c} (hp : Sound p) (hf : p.file = some f) (hk : Begins p lo key) :
    Tri (fun s => s.cur = c) (part_iterator_open f key)
      (fun _ s => ∃ r i, Like (place c r i) s ∧ r ++ i.tail.flatten = from_ lo (stored p) ∧
        (r = [] → i.tail.flatten = []) ∧ (i = [] → r = []))
      (fun s => ∃ r i, Like (place c r i) s) := by
  unfold part_iterator_open
  refine tri_bind (fun _ => Like (place c [] (index_seek key f.regions))) (tri_modify fun s h => ?_) fun _ =>
    tri_bind _ tri_get fun d => tri_pre fun s0 h0 => ?_
  · subst h; exact like_refl rfl
  · have hst : stored p = f.regions.flatten := by unfold stored; rw [hf]
    have hidx : d.file.index = index_seek key f.regions := by
      obtain ⟨⟨bs, cm, en, pt, h1⟩, h2⟩ := h0
      rw [← h2, h1]; rfl
    rw [hidx]
    have hsk := seek_from hp hk .file
    change seek key (stored p) = from_ lo (stored p) at hsk
    cases hi : index_seek key f.regions with
    | nil =>
      refine tri_pure fun s h => ⟨[], [], ?_, ?_, fun _ => rfl, fun _ => rfl⟩
      · rw [h, ← hi]; exact h0.1
      · rw [← hsk, hst]
        cases key with
        | none =>
          have hi : f.regions = [] := hi
          rw [hi]; rfl
        | some k =>
          have hi : f.regions.dropWhile (fun r => r.all fun e => e.id < k) = [] := hi
          show [] = f.regions.flatten.dropWhile (fun e => e.id < k)
          rw [dropWhile_flatten, hi]
    | cons y t =>
      refine tri_bind (fun _ => Like (place c [] (y :: t))) ?_ fun _ => ?_
      · exact tri_weaken r_reader_open (fun s h => by rw [h, ← hi]; exact h0.1) (fun _ _ h => h)
          (fun s h => ⟨_, _, h⟩)
      · refine tri_weaken r_open_region (fun s h => h) (fun _ s h => ?_) (fun s h => ⟨_, _, h⟩)
        have hall : seek key y ++ t.flatten = from_ lo (stored p) ∧ seek key y ≠ [] := by
          rw [← hsk, hst]
          cases key with
          | none =>
            have hi : f.regions = y :: t := hi
            rw [hi]
            exact ⟨rfl, hp.2.2.2.2.2.2 f hf y (by rw [hi]; simp)⟩
          | some k =>
            have hi : f.regions.dropWhile (fun r => r.all fun e => e.id < k) = y :: t := hi
            refine ⟨?_, fun e => ?_⟩
            · show y.dropWhile (fun e => e.id < k) ++ t.flatten = f.regions.flatten.dropWhile (fun e => e.id < k)
              rw [dropWhile_flatten, hi]
            · have e : y.dropWhile (fun e => e.id < k) = [] := e
              rw [dropWhile_nil_iff] at e
              have h1 := List.head_dropWhile_not (fun r : List Ev => r.all fun e => e.id < k) (l := f.regions) (by rw [hi]; simp)
              simp only [hi, List.head_cons] at h1
              rw [List.all_eq_true.2 e] at h1
              cases h1
        exact ⟨seek key y, y :: t, h, hall.1, fun e => absurd e hall.2, fun e => by cases e⟩

theorem r_merge_add {c sr} : Tri (fun s => s.cur = c) (merge_iterator_add sr)
    (fun _ s => ∃ k, s.cur = { c with list := c.list ++ [(sr, false)], cap := k }) (fun s => s.cur = c) := by
  unfold merge_iterator_add
  refine tri_bind _ tri_get' fun d => tri_bind (fun _ s => ∃ k, s.cur = { c with cap := k }) ?_ fun _ =>
    tri_modify fun s h => ?_
  · split
    · exact tri_pure fun s h => ⟨c.cap, h⟩
    · refine tri_bind _ (t_fallible fun _ h => h) fun _ => tri_bind (fun _ s => s.cur = c) ?_ fun _ =>
        tri_modify fun s h => ?_
      · split
        · exact tri_act fun _ h => h
        · exact tri_pure fun _ h => h
      · subst h; exact ⟨_, rfl⟩
  · obtain ⟨k, h⟩ := h
    exact ⟨k, by rw [h]⟩

/-- Some sources were added, none has been read. -/
def Adding (p : Part) (lo : Nat) (r : Option (Nat × Part)) (l : List Src) (s : St) : Prop :=
  s.cur.ref = r ∧ s.cur.list = l.map (fun y => (y, false)) ∧
  (∀ y ∈ l, Exact p lo true y (rest s.cur y) ∧ Tidy s.cur y) ∧
  (.file ∈ l → s.cur.file.index = [] → s.cur.file.region = [])

theorem adding_pre {p lo r l s x} (h : Adding p lo r l s) (hl : l <+: srcs p) (hx : x = true → l = srcs p) :
    Pre p lo x s.cur := by
  obtain ⟨h1, h2, h3, h4⟩ := h
  have hm : s.cur.list.map Prod.fst = l := by
    rw [h2, List.map_map]
    conv => rhs; rw [← List.map_id l]
    rfl
  refine ⟨⟨by rw [hm]; exact hl, fun e => by rw [hm]; exact hx e⟩, fun y hy => ?_, by rw [hm]; exact h4⟩
  rw [h2] at hy
  obtain ⟨s', hs', rfl⟩ := List.mem_map.1 hy
  have := h3 s' hs'
  exact ⟨⟨fun _ => this.1.1 (.inr rfl), this.1.2⟩, this.2⟩

theorem exact_from {p lo s} (hp : Sound p) : Exact p lo true s (from_ lo (whole p s)) :=
  ⟨fun _ => rfl, from_suffix (sound_whole hp s), fun _ he => (mem_from.1 he).2⟩

/-- One more source: its iterator is placed, then it is added. -/
theorem adding_step {p lo r l c} {sr : Src} {d : Cur} {k : Nat} {s s' : St} (h : Adding p lo r l s) (hc : s.cur = c)
    (hd : d.ref = c.ref ∧ d.list = c.list) (hn : sr ∉ l)
    (ha : sr ≠ .a → d.a.rest = c.a.rest) (hb : sr ≠ .b → d.b.rest = c.b.rest)
    (hf : sr ≠ .file → d.file.region = c.file.region ∧ d.file.index = c.file.index)
    (hs : Exact p lo true sr (rest d sr) ∧ Tidy d sr) (hi : sr = .file → d.file.index = [] → d.file.region = [])
    (he : s'.cur = { d with list := d.list ++ [(sr, false)], cap := k }) : Adding p lo r (l ++ [sr]) s' := by
  obtain ⟨h1, h2, h3, h4⟩ := h
  have hkeep : ∀ y, y ≠ sr → rest d y = rest c y ∧ (Tidy c y → Tidy d y) := by
    intro y hy
    cases y with
    | a => exact ⟨ha (fun e => hy e.symm), fun _ e => by cases e⟩
    | b => exact ⟨hb (fun e => hy e.symm), fun _ e => by cases e⟩
    | file =>
      obtain ⟨e1, e2⟩ := hf (fun e => hy e.symm)
      refine ⟨by simp only [rest, e1, e2], fun ht => ?_⟩
      unfold Tidy rest at *
      rw [e1, e2]; exact ht
  have hr : ∀ y, rest s'.cur y = rest d y := by intro y; rw [he]; cases y <;> rfl
  have ht : ∀ y, Tidy d y → Tidy s'.cur y := by
    intro y h
    unfold Tidy at *
    rw [hr, he]; exact h
  refine ⟨by rw [he]; exact hd.1.trans (hc ▸ h1), ?_, fun y hy => ?_, fun hm hx => ?_⟩
  · rw [he]
    show d.list ++ _ = _
    rw [hd.2, ← hc, h2]; simp
  · rcases List.mem_append.1 hy with hy | hy
    · have hne : y ≠ sr := fun e => hn (e ▸ hy)
      have := h3 y hy
      rw [hc] at this
      rw [hr, (hkeep y hne).1]
      exact ⟨this.1, ht y ((hkeep y hne).2 this.2)⟩
    · simp only [List.mem_singleton] at hy
      subst hy
      rw [hr]
      exact ⟨hs.1, ht _ hs.2⟩
  · rw [he] at hx ⊢
    by_cases e : sr = .file
    · exact hi e hx
    · have hm : Src.file ∈ l := by
        rcases List.mem_append.1 hm with h | h
        · exact h
        · simp only [List.mem_singleton] at h; exact absurd h.symm e
      obtain ⟨e1, e2⟩ := hf e
      have := h4 hm
      rw [hc] at this
      show d.file.region = []
      rw [e1]
      apply this
      rw [← e2]; exact hx

/-- The iterator of a source was placed, but not added. -/
theorem adding_frame {p lo r l s s'} {sr : Src} (h : Adding p lo r l s)
    (hd : s'.cur.ref = s.cur.ref ∧ s'.cur.list = s.cur.list) (hn : sr ∉ l)
    (ha : sr ≠ .a → s'.cur.a.rest = s.cur.a.rest) (hb : sr ≠ .b → s'.cur.b.rest = s.cur.b.rest)
    (hf : sr ≠ .file → s'.cur.file.region = s.cur.file.region ∧ s'.cur.file.index = s.cur.file.index) :
    Adding p lo r l s' := by
  obtain ⟨h1, h2, h3, h4⟩ := h
  refine ⟨hd.1.trans h1, hd.2.trans h2, fun y hy => ?_, fun hm => ?_⟩
  · have hne : y ≠ sr := fun e => hn (e ▸ hy)
    have := h3 y hy
    cases y with
    | a =>
      refine ⟨?_, fun e => by cases e⟩
      unfold rest at *
      rw [ha (fun e => hne e.symm)]; exact this.1
    | b =>
      refine ⟨?_, fun e => by cases e⟩
      unfold rest at *
      rw [hb (fun e => hne e.symm)]; exact this.1
    | file =>
      obtain ⟨e1, e2⟩ := hf (fun e => hne e.symm)
      unfold Tidy rest at *
      rw [e1, e2]; exact this
  · have hne : Src.file ≠ sr := fun e => hn (e ▸ hm)
    obtain ⟨e1, e2⟩ := hf (fun e => hne e.symm)
    rw [e1, e2]; exact h4 hm

theorem stands_weak {p lo c} (h : Stands p lo true c) (x : Bool) : Stands p lo x c := by
  cases x with
  | true => exact h
  | false =>
    unfold Stands at *
    split at h
    · exact ⟨h.1, pre_weak h.2.1, fun e => by cases e⟩
    · exact ⟨h.1, h.2.1, h.2.2.1, h.2.2.2.1, pre_weak h.2.2.2.2.1, fun e => by cases e⟩

theorem r_open_a {p lo r i key} (hp : Sound p) (hk : Begins p lo key) :
    Tri (Adding p lo r []) (do open_a i p.a key; merge_iterator_add .a) (fun _ => Adding p lo r [.a]) (Adding p lo r []) := by
  refine tri_pre fun s0 h0 => ?_
  refine tri_bind (fun _ s => ∃ ln, s.cur = { s0.cur with a := ⟨from_ lo p.a, ln⟩ }) ?_ fun _ => ?_
  · unfold open_a
    have hs := seek_from hp hk .a
    change seek key p.a = from_ lo p.a at hs
    rw [hs]
    refine tri_bind (fun _ s => ∃ ln, s.cur = { s0.cur with a := ⟨from_ lo p.a, ln⟩ }) (tri_modify fun s h => ?_) fun _ => ?_
    · subst h; exact ⟨_, rfl⟩
    · split
      · exact tri_pure fun s h => h
      · refine tri_bind (fun _ s => ∃ ln, s.cur = { s0.cur with a := ⟨from_ lo p.a, ln⟩ }) (tri_act fun s h => h) fun _ => ?_
        refine tri_modify fun s h => ?_
        obtain ⟨ln, h⟩ := h
        exact ⟨some i, by rw [h]⟩
  · refine tri_pre fun s1 h1 => ?_
    obtain ⟨ln, h1⟩ := h1
    refine tri_weaken (r_merge_add (c := s1.cur)) (fun s h => by rw [h]) (fun _ s h => ?_) (fun s h => ?_)
    · obtain ⟨k, h⟩ := h
      refine adding_step (l := []) (sr := .a) h0 rfl ?_ (by simp) (fun e => absurd rfl e) (fun _ => ?_) (fun _ => ?_) ?_
        (fun e => by cases e) h
      · rw [h1]; exact ⟨rfl, rfl⟩
      · rw [h1]
      · rw [h1]; exact ⟨rfl, rfl⟩
      · rw [h1]; exact ⟨exact_from hp, fun e => by cases e⟩
    · refine adding_frame (sr := .a) h0 ?_ (by simp) (fun e => absurd rfl e) (fun _ => ?_) (fun _ => ?_)
      · rw [h, h1]; exact ⟨rfl, rfl⟩
      · rw [h, h1]
      · rw [h, h1]; exact ⟨rfl, rfl⟩

theorem r_open_b {p lo r l key} (hp : Sound p) (hk : Begins p lo key) (hl : .b ∉ l) :
    Tri (Adding p lo r l) (do open_b p.b key; merge_iterator_add .b) (fun _ => Adding p lo r (l ++ [.b]))
      (Adding p lo r l) := by
  refine tri_pre fun s0 h0 => ?_
  refine tri_bind (fun _ s => s.cur = { s0.cur with b := { s0.cur.b with rest := from_ lo p.b } }) ?_ fun _ => ?_
  · unfold open_b
    have hs := seek_from hp hk .b
    change seek key p.b = from_ lo p.b at hs
    rw [hs]
    exact tri_modify fun s h => by subst h; rfl
  · refine tri_pre fun s1 h1 => ?_
    refine tri_weaken (r_merge_add (c := s1.cur)) (fun s h => by rw [h]) (fun _ s h => ?_) (fun s h => ?_)
    · obtain ⟨k, h⟩ := h
      refine adding_step (sr := .b) h0 rfl ?_ hl (fun _ => ?_) (fun e => absurd rfl e) (fun _ => ?_) ?_
        (fun e => by cases e) h
      · rw [h1]; exact ⟨rfl, rfl⟩
      · rw [h1]
      · rw [h1]; exact ⟨rfl, rfl⟩
      · rw [h1]; exact ⟨exact_from hp, fun e => by cases e⟩
    · refine adding_frame (sr := .b) h0 ?_ hl (fun _ => ?_) (fun e => absurd rfl e) (fun _ => ?_)
      · rw [h, h1]; exact ⟨rfl, rfl⟩
      · rw [h, h1]
      · rw [h, h1]; exact ⟨rfl, rfl⟩

theorem r_open_file {p f lo r l key} (hp : Sound p) (hf : p.file = some f) (hk : Begins p lo key) (hl : .file ∉ l) :
    Tri (Adding p lo r l) (do part_iterator_open f key; merge_iterator_add .file) (fun _ => Adding p lo r (l ++ [.file]))
      (Adding p lo r l) := by
  refine tri_pre fun s0 h0 => ?_
  have hfr : ∀ s, (∃ r i, Like (place s0.cur r i) s) → Adding p lo r l s := by
    intro s h
    obtain ⟨rr, i, bs, cm, en, pt, h⟩ := h
    refine adding_frame (sr := .file) h0 ?_ hl (fun _ => ?_) (fun _ => ?_) (fun e => absurd rfl e)
    · rw [h]; exact ⟨rfl, rfl⟩
    · rw [h]; rfl
    · rw [h]; rfl
  refine tri_bind _ (tri_weaken (r_part_open (c := s0.cur) hp hf hk) (fun s h => by rw [h]) (fun _ _ h => h) (fun s h => hfr s h))
    fun _ => ?_
  refine tri_pre fun s1 h1 => ?_
  obtain ⟨rr, i, hlike, h2, h3, h4⟩ := h1
  refine tri_weaken (r_merge_add (c := s1.cur)) (fun s h => by rw [h]) (fun _ s h => ?_) (fun s h => ?_)
  · obtain ⟨bs, cm, en, pt, hlike⟩ := hlike
    obtain ⟨k, h⟩ := h
    refine adding_step (sr := .file) h0 rfl ?_ hl (fun _ => ?_) (fun _ => ?_) (fun e => absurd rfl e) ?_
      (fun _ => ?_) h
    · rw [hlike]; exact ⟨rfl, rfl⟩
    · rw [hlike]; rfl
    · rw [hlike]; rfl
    · rw [hlike]
      refine ⟨?_, fun _ hr => ?_⟩
      · show Exact p lo true .file (rr ++ i.tail.flatten)
        rw [h2]; exact exact_from hp
      · have hr : rr = [] := hr
        show rr ++ i.tail.flatten = []
        rw [hr, h3 hr]; rfl
    · rw [hlike]; exact h4
  · refine hfr s ⟨rr, i, ?_⟩
    obtain ⟨bs, cm, en, pt, hlike⟩ := hlike
    exact ⟨bs, cm, en, pt, h.trans hlike⟩

theorem r_part_cursor_open {p lo r i key} (hp : Sound p) (hk : Begins p lo key) :
    Tri (fun s => s.cur.list = [] ∧ s.cur.ref = r) (part_cursor_open i p key)
      (fun _ s => Stands p lo true s.cur ∧ s.cur.ref = r) (fun s => Pre p lo false s.cur ∧ s.cur.ref = r) := by
  let la : List Src := match p.a with | [] => [] | _ :: _ => [.a]
  let lb : List Src := match p.b with | [] => [] | _ :: _ => [.b]
  let lf : List Src := match p.file with | none => [] | some _ => [.file]
  have hsrc : srcs p = la ++ (lb ++ lf) := rfl
  have hla : la = [] ∨ la = [.a] := by
    cases h : p.a with
    | nil => exact .inl (by show (match p.a with | [] => [] | _ :: _ => [Src.a]) = _; rw [h])
    | cons e t => exact .inr (by show (match p.a with | [] => [] | _ :: _ => [Src.a]) = _; rw [h])
  have hlb : lb = [] ∨ lb = [.b] := by
    cases h : p.b with
    | nil => exact .inl (by show (match p.b with | [] => [] | _ :: _ => [Src.b]) = _; rw [h])
    | cons e t => exact .inr (by show (match p.b with | [] => [] | _ :: _ => [Src.b]) = _; rw [h])
  have hE : ∀ l, l <+: srcs p → ∀ s, Adding p lo r l s → Pre p lo false s.cur ∧ s.cur.ref = r :=
    fun l hl s h => ⟨adding_pre h hl (fun e => by cases e), h.1⟩
  unfold part_cursor_open
  refine tri_bind (fun _ => Adding p lo r la) ?_ fun _ => tri_bind (fun _ => Adding p lo r (la ++ lb)) ?_ fun _ =>
    tri_bind (fun _ => Adding p lo r (la ++ lb ++ lf)) ?_ fun _ => ?_
  · have h0 : ∀ s : St, s.cur.list = [] ∧ s.cur.ref = r → Adding p lo r [] s :=
      fun s h => ⟨h.2, h.1, fun y hy => by simp at hy, fun hy => by simp at hy⟩
    cases ha : p.a with
    | nil =>
      have : la = [] := by show (match p.a with | [] => [] | _ :: _ => [Src.a]) = _; rw [ha]
      rw [this]
      exact tri_pure h0
    | cons e t =>
      have : la = [.a] := by show (match p.a with | [] => [] | _ :: _ => [Src.a]) = _; rw [ha]
      rw [this]
      have hq := r_open_a (i := i) (r := r) hp hk
      rw [ha] at hq
      exact tri_weaken hq h0 (fun _ _ h => h) (fun s h => hE [] (List.nil_prefix) s h)
  · cases hb : p.b with
    | nil =>
      have : lb = [] := by show (match p.b with | [] => [] | _ :: _ => [Src.b]) = _; rw [hb]
      rw [this, List.append_nil]
      exact tri_pure fun _ h => h
    | cons e t =>
      have : lb = [.b] := by show (match p.b with | [] => [] | _ :: _ => [Src.b]) = _; rw [hb]
      rw [this]
      have hq := r_open_b (r := r) (l := la) hp hk (by rcases hla with e | e <;> rw [e] <;> simp)
      rw [hb] at hq
      exact tri_weaken hq (fun _ h => h) (fun _ _ h => h)
        (fun s h => hE la (by rw [hsrc]; exact List.prefix_append _ _) s h)
  · cases hf : p.file with
    | none =>
      have : lf = [] := by show (match p.file with | none => [] | some _ => [Src.file]) = _; rw [hf]
      rw [this, List.append_nil]
      exact tri_pure fun _ h => h
    | some f =>
      have : lf = [.file] := by show (match p.file with | none => [] | some _ => [Src.file]) = _; rw [hf]
      rw [this]
      exact tri_weaken (r_open_file (r := r) (l := la ++ lb) hp hf hk
        (by rcases hla with e | e <;> rcases hlb with e' | e' <;> rw [e, e'] <;> simp))
        (fun _ h => h) (fun _ _ h => h)
        (fun s h => hE (la ++ lb) (by rw [hsrc, ← List.append_assoc]; exact List.prefix_append _ _) s h)
  · refine tri_weaken (r_merge_next (p := p) (lo := lo) (x := true) (r := r) hp) (fun s h => ⟨?_, h.1⟩)
      (fun _ _ h => h) (fun _ h => h)
    refine adding_pre h ?_ (fun _ => ?_)
    · rw [hsrc, List.append_assoc]; exact List.prefix_rfl
    · rw [hsrc, List.append_assoc]

end Verif.C78
