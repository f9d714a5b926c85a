import Verif.Spec.C66

/-! Lists in memory (used by C66). -/
namespace Verif.C66
open Links

/-- The field `next`, if there is a link. -/
def nx (m : Mem) (p : Ptr) : Option Ptr := (m p).map (·.next)

/-- The field `prev`, if there is a link. -/
def pv (m : Mem) (p : Ptr) : Option Ptr := (m p).map (·.prev)

theorem edge_iff {m : Mem} {a b : Ptr} : Edge m a b ↔ nx m a = some b ∧ pv m b = some a := by
  simp [Edge, nx, pv, Option.map_eq_some_iff]

theorem next_ok {m : Mem} {p v : Ptr} (h : nx m p = some v) : next m p = .ok v := by
  unfold nx at h; unfold next
  cases hm : m p <;> rw [hm] at h <;> simp_all

theorem prev_ok {m : Mem} {p v : Ptr} (h : pv m p = some v) : prev m p = .ok v := by
  unfold pv at h; unfold prev
  cases hm : m p <;> rw [hm] at h <;> simp_all

theorem pv_of_nx {m : Mem} {p v : Ptr} (h : nx m p = some v) : ∃ u, pv m p = some u := by
  unfold nx at h; unfold pv
  cases hm : m p <;> rw [hm] at h <;> simp_all

theorem nx_of_pv {m : Mem} {p v : Ptr} (h : pv m p = some v) : ∃ u, nx m p = some u := by
  unfold pv at h; unfold nx
  cases hm : m p <;> rw [hm] at h <;> simp_all

theorem setNext_ok {m : Mem} {p v u : Ptr} (h : nx m p = some u) :
    ∃ m', setNext m p v = .ok m' ∧ (∀ q, nx m' q = if q = p then some v else nx m q) ∧ ∀ q, pv m' q = pv m q := by
  unfold nx at h; unfold setNext
  cases hm : m p with
  | none => rw [hm] at h; simp at h
  | some l =>
    refine ⟨_, rfl, fun q => ?_, fun q => ?_⟩
    · unfold nx; dsimp only; split <;> simp_all
    · unfold pv; dsimp only; split <;> simp_all

theorem setPrev_ok {m : Mem} {p v u : Ptr} (h : pv m p = some u) :
    ∃ m', setPrev m p v = .ok m' ∧ (∀ q, pv m' q = if q = p then some v else pv m q) ∧ ∀ q, nx m' q = nx m q := by
  unfold pv at h; unfold setPrev
  cases hm : m p with
  | none => rw [hm] at h; simp at h
  | some l =>
    refine ⟨_, rfl, fun q => ?_, fun q => ?_⟩
    · unfold pv; dsimp only; split <;> simp_all
    · unfold nx; dsimp only; split <;> simp_all

/-! What the operations do to the fields. -/

/-- A link is put between two. -/
structure Inserted (m m' : Mem) (a x b : Ptr) : Prop where
  nx : ∀ q, nx m' q = if q = a then some x else if q = x then some b else nx m q
  pv : ∀ q, pv m' q = if q = b then some x else if q = x then some a else pv m q

/-- What is between two is taken out. -/
structure Removed (m m' : Mem) (a b : Ptr) : Prop where
  nx : ∀ q, nx m' q = if q = a then some b else nx m q
  pv : ∀ q, pv m' q = if q = b then some a else pv m q

theorem append_ok {m : Mem} {h x p u v : Ptr} (hx : nx m x = some u) (hp : pv m h = some p) (hn : nx m p = some v)
    (h1 : x ≠ h) (h2 : x ≠ p) : ∃ m', list_append m h x = .ok m' ∧ Inserted m m' p x h := by
  obtain ⟨m1, e1, n1, p1⟩ := setNext_ok (v := h) hx
  have hp1 : pv m1 h = some p := by rw [p1, hp]
  obtain ⟨u', hu'⟩ := pv_of_nx hx
  obtain ⟨m2, e2, p2, n2⟩ := setPrev_ok (m := m1) (p := x) (v := p) (by rw [p1]; exact hu')
  have hp2 : pv m2 x = some p := by rw [p2, if_pos rfl]
  obtain ⟨m3, e3, n3, p3⟩ := setNext_ok (m := m2) (p := p) (v := x) (u := v) (by rw [n2, n1, if_neg (Ne.symm h2), hn])
  have hn3 : nx m3 x = some h := by rw [n3, if_neg h2, n2, n1, if_pos rfl]
  obtain ⟨m4, e4, p4, n4⟩ := setPrev_ok (m := m3) (p := h) (v := x) (u := p) (by rw [p3, p2, if_neg (Ne.symm h1), p1, hp])
  refine ⟨m4, ?_, ⟨fun q => ?_, fun q => ?_⟩⟩
  · unfold list_append
    rw [e1, Res.bind_ok, prev_ok hp1, Res.bind_ok, e2, Res.bind_ok, prev_ok hp2, Res.bind_ok, e3, Res.bind_ok, next_ok hn3,
      Res.bind_ok, e4]
  · rw [n4, n3, n2, n1]
  · rw [p4, p3, p2, p1]

theorem push_ok {m : Mem} {h x n u v : Ptr} (hx : nx m x = some u) (hn : nx m h = some n) (hp : pv m n = some v)
    (h1 : x ≠ h) (h2 : x ≠ n) : ∃ m', list_push m h x = .ok m' ∧ Inserted m m' h x n := by
  obtain ⟨m1, e1, n1, p1⟩ := setNext_ok (v := n) hx
  obtain ⟨u', hu'⟩ := pv_of_nx hx
  obtain ⟨m2, e2, p2, n2⟩ := setPrev_ok (m := m1) (p := x) (v := h) (by rw [p1]; exact hu')
  have hp2 : pv m2 x = some h := by rw [p2, if_pos rfl]
  obtain ⟨m3, e3, n3, p3⟩ := setNext_ok (m := m2) (p := h) (v := x) (u := n) (by rw [n2, n1, if_neg (Ne.symm h1), hn])
  have hn3 : nx m3 x = some n := by rw [n3, if_neg h1, n2, n1, if_pos rfl]
  obtain ⟨m4, e4, p4, n4⟩ := setPrev_ok (m := m3) (p := n) (v := x) (u := v) (by rw [p3, p2, if_neg (Ne.symm h2), p1, hp])
  refine ⟨m4, ?_, ⟨fun q => ?_, fun q => ?_⟩⟩
  · unfold list_push
    rw [next_ok hn, Res.bind_ok, e1, Res.bind_ok, e2, Res.bind_ok, prev_ok hp2, Res.bind_ok, e3, Res.bind_ok, next_ok hn3,
      Res.bind_ok, e4]
  · rw [n4, n3, n2, n1]
  · rw [p4, p3, p2, p1]

theorem unlink_ok {m : Mem} {a x b : Ptr} (h1 : Edge m a x) (h2 : Edge m x b) (hx : x ≠ a) :
    ∃ m', list_unlink m x = .ok m' ∧ Removed m m' a b := by
  rw [edge_iff] at h1 h2
  obtain ⟨m1, e1, n1, p1⟩ := setNext_ok (p := a) (v := b) h1.1
  obtain ⟨m2, e2, p2, n2⟩ := setPrev_ok (m := m1) (p := b) (v := a) (by rw [p1]; exact h2.2)
  refine ⟨m2, ?_, ⟨fun q => ?_, fun q => ?_⟩⟩
  · unfold list_unlink
    rw [prev_ok h1.2, Res.bind_ok, next_ok h2.1, Res.bind_ok, e1, Res.bind_ok,
      next_ok (show nx m1 x = some b by rw [n1, if_neg hx, h2.1]), Res.bind_ok, prev_ok (show pv m1 x = some a by rw [p1, h1.2]),
      Res.bind_ok, e2]
  · rw [n2, n1]
  · rw [p2, p1]

theorem init_ok {m : Mem} {x u : Ptr} (hx : nx m x = some u) :
    ∃ m', list_init m x = .ok m' ∧ (∀ q, nx m' q = if q = x then some x else nx m q) ∧
      ∀ q, pv m' q = if q = x then some x else pv m q := by
  obtain ⟨u', hu'⟩ := pv_of_nx hx
  obtain ⟨m1, e1, p1, n1⟩ := setPrev_ok (p := x) (v := x) hu'
  obtain ⟨m2, e2, n2, p2⟩ := setNext_ok (m := m1) (p := x) (v := x) (by rw [n1]; exact hx)
  refine ⟨m2, by unfold list_init; rw [e1, Res.bind_ok, e2], fun q => ?_, fun q => ?_⟩
  · rw [n2, n1]
  · rw [p2, p1]

/-! Paths. -/

theorem path_frame {m m' : Mem} : ∀ {l : List Ptr}, (∀ a ∈ l.dropLast, nx m' a = nx m a) → (∀ a ∈ l.tail, pv m' a = pv m a) →
    Path m l → Path m' l
  | [], _, _, _ => trivial
  | [_], _, _, _ => trivial
  | a :: b :: l, h1, h2, h => by
    refine ⟨?_, path_frame (l := b :: l) (fun c hc => h1 c (by simp [hc])) (fun c hc => h2 c (by simp at hc ⊢; simp [hc])) h.2⟩
    have := edge_iff.1 h.1
    rw [edge_iff, h1 a (by simp), h2 b (by simp)]
    exact this

theorem path_split {m : Mem} {a b : Ptr} {r : List Ptr} : ∀ {l : List Ptr},
    Path m (l ++ a :: b :: r) ↔ Path m (l ++ [a]) ∧ Edge m a b ∧ Path m (b :: r)
  | [] => by simp [Path]
  | [c] => by simp [Path, and_assoc]
  | c :: d :: l => by
    have ih := path_split (m := m) (a := a) (b := b) (r := r) (l := d :: l)
    simp only [List.cons_append] at ih ⊢
    simp only [Path] at ih ⊢
    rw [ih, and_assoc]

/-- Putting a link between two. -/
theorem path_insert {m m' : Mem} {a x b : Ptr} {l r : List Ptr} (h : Path m (l ++ a :: b :: r)) (hi : Inserted m m' a x b)
    (d1 : (l ++ a :: b :: r).dropLast.Nodup) (d2 : (l ++ a :: b :: r).tail.Nodup) (hx : x ∉ l ++ a :: b :: r) :
    Path m' (l ++ a :: x :: b :: r) := by
  obtain ⟨p1, p2, p3⟩ := path_split.1 h
  have e1 : (l ++ a :: b :: r).dropLast = (l ++ [a]) ++ (b :: r).dropLast := by
    rw [show l ++ a :: b :: r = (l ++ [a]) ++ (b :: r) by simp, List.dropLast_append_of_ne_nil (by simp)]
  have e2 : (l ++ a :: b :: r).tail = (l ++ [a]).tail ++ (b :: r) := by
    rw [show l ++ a :: b :: r = (l ++ [a]) ++ (b :: r) by simp, List.tail_append_of_ne_nil (by simp)]
  rw [e1, List.nodup_append] at d1
  rw [e2, List.nodup_append] at d2
  have hxa : x ≠ a := by rintro rfl; exact hx (by simp)
  have hxb : x ≠ b := by rintro rfl; exact hx (by simp)
  rw [path_split]
  refine ⟨path_frame ?_ ?_ p1, ?_, ?_⟩
  · intro c hc
    rw [List.dropLast_concat] at hc
    have : c ≠ a := by
      rintro rfl
      exact (List.nodup_append.1 d1.1).2.2 c hc c (by simp) rfl
    have : c ≠ x := by rintro rfl; exact hx (by simp [hc])
    rw [hi.nx, if_neg ‹_›, if_neg ‹_›]
  · intro c hc
    have : c ≠ b := by
      rintro rfl
      exact d2.2.2 c hc c (by simp) rfl
    have : c ≠ x := by
      rintro rfl
      have := List.mem_of_mem_tail hc
      exact hx (by simp at this ⊢; rcases this with h | h <;> simp [h])
    rw [hi.pv, if_neg ‹_›, if_neg ‹_›]
  · rw [edge_iff, hi.nx, hi.pv, if_pos rfl, if_neg hxb, if_pos rfl]
    exact ⟨rfl, rfl⟩
  · refine ⟨?_, path_frame ?_ ?_ p3⟩
    · rw [edge_iff, hi.nx, hi.pv, if_neg hxa, if_pos rfl, if_pos rfl]
      exact ⟨rfl, rfl⟩
    · intro c hc
      have : c ≠ a := by
        rintro rfl
        exact d1.2.2 c (by simp) c hc rfl
      have : c ≠ x := by
        rintro rfl
        exact hx (by have := List.dropLast_subset _ hc; simp at this ⊢; rcases this with h | h <;> simp [h])
      rw [hi.nx, if_neg ‹_›, if_neg ‹_›]
    · intro c hc
      simp only [List.tail_cons] at hc
      have : c ≠ b := by
        rintro rfl
        exact (List.nodup_cons.1 d2.2.1).1 hc
      have : c ≠ x := by rintro rfl; exact hx (by simp [hc])
      rw [hi.pv, if_neg ‹_›, if_neg ‹_›]

/-- Taking out what is between two. -/
theorem path_remove {m m' : Mem} {a x b : Ptr} {l r : List Ptr} (h : Path m (l ++ a :: x :: b :: r)) (hi : Removed m m' a b)
    (d1 : (l ++ a :: x :: b :: r).dropLast.Nodup) (d2 : (l ++ a :: x :: b :: r).tail.Nodup) :
    Path m' (l ++ a :: b :: r) := by
  obtain ⟨p1, p2, p3⟩ := path_split.1 h
  have e1 : (l ++ a :: x :: b :: r).dropLast = (l ++ [a]) ++ x :: (b :: r).dropLast := by
    rw [show l ++ a :: x :: b :: r = (l ++ [a]) ++ (x :: b :: r) by simp, List.dropLast_append_of_ne_nil (by simp)]; rfl
  have e2 : (l ++ a :: x :: b :: r).tail = (l ++ [a]).tail ++ (x :: b :: r) := by
    rw [show l ++ a :: x :: b :: r = (l ++ [a]) ++ (x :: b :: r) by simp, List.tail_append_of_ne_nil (by simp)]
  rw [e1, List.nodup_append] at d1
  rw [e2, List.nodup_append] at d2
  rw [path_split]
  refine ⟨path_frame ?_ ?_ p1, ?_, path_frame ?_ ?_ p3.2⟩
  · intro c hc
    rw [List.dropLast_concat] at hc
    have : c ≠ a := by
      rintro rfl
      exact (List.nodup_append.1 d1.1).2.2 c hc c (by simp) rfl
    rw [hi.nx, if_neg ‹_›]
  · intro c hc
    have : c ≠ b := by
      rintro rfl
      exact d2.2.2 c hc c (by simp) rfl
    rw [hi.pv, if_neg ‹_›]
  · rw [edge_iff, hi.nx, hi.pv, if_pos rfl, if_pos rfl]
    exact ⟨rfl, rfl⟩
  · intro c hc
    have : c ≠ a := by
      rintro rfl
      exact d1.2.2 c (by simp) c (by simp [hc]) rfl
    rw [hi.nx, if_neg ‹_›]
  · intro c hc
    simp only [List.tail_cons] at hc
    have : c ≠ b := by
      rintro rfl
      exact (List.nodup_cons.1 (List.nodup_cons.1 d2.2.1).2).1 hc
    rw [hi.pv, if_neg ‹_›]

/-! Rings. -/

theorem ring_nodup {h : Ptr} {xs : List Ptr} (hd : (h :: xs).Nodup) : (h :: xs ++ [h]).dropLast.Nodup ∧ (h :: xs ++ [h]).tail.Nodup := by
  refine ⟨by rw [List.dropLast_concat]; exact hd, ?_⟩
  simp only [List.cons_append, List.tail_cons]
  rw [List.nodup_cons] at hd
  rw [List.nodup_append]
  exact ⟨hd.2, by simp, fun a ha b hb e => by simp at hb; subst hb; subst e; exact hd.1 ha⟩

/-- A ring stays when its links are not touched. -/
theorem ring_frame {m m' : Mem} {h : Ptr} {xs : List Ptr} (h1 : ∀ a ∈ h :: xs, nx m' a = nx m a) (h2 : ∀ a ∈ h :: xs, pv m' a = pv m a)
    (hr : Ring m h xs) : Ring m' h xs := by
  refine path_frame (fun a ha => h1 a ?_) (fun a ha => h2 a ?_) hr
  · rwa [List.dropLast_concat] at ha
  · simp at ha ⊢
    rcases ha with h | h <;> simp [h]

theorem ring_append {m m' : Mem} {h x p : Ptr} {xs : List Ptr} (hd : (h :: xs).Nodup) (hx : x ∉ h :: xs) (hr : Ring m h xs)
    (hp : ∃ l, h :: xs = l ++ [p]) (hi : Inserted m m' p x h) : Ring m' h (xs ++ [x]) := by
  obtain ⟨l, e⟩ := hp
  have e1 : h :: xs ++ [h] = l ++ p :: h :: [] := by rw [e]; simp
  have e2 : h :: (xs ++ [x]) ++ [h] = l ++ p :: x :: h :: [] := by
    rw [show h :: (xs ++ [x]) ++ [h] = (h :: xs) ++ [x, h] by simp, e]; simp
  unfold Ring at hr ⊢
  obtain ⟨d1, d2⟩ := ring_nodup hd
  rw [e1] at hr d1 d2
  rw [e2]
  refine path_insert hr hi d1 d2 ?_
  rw [← e1]
  simp only [List.mem_append, List.mem_cons, List.cons_append, List.not_mem_nil, or_false, not_or] at hx ⊢
  exact ⟨hx.1, hx.2, hx.1⟩

theorem ring_push {m m' : Mem} {h x n : Ptr} {xs : List Ptr} (hd : (h :: xs).Nodup) (hx : x ∉ h :: xs) (hr : Ring m h xs)
    (hn : ∃ r, xs ++ [h] = n :: r) (hi : Inserted m m' h x n) : Ring m' h (x :: xs) := by
  obtain ⟨r, e⟩ := hn
  unfold Ring at hr ⊢
  obtain ⟨d1, d2⟩ := ring_nodup hd
  have e0 : h :: xs ++ [h] = [] ++ h :: n :: r := by rw [List.cons_append, e]; rfl
  rw [e0] at hr d1 d2
  have : h :: x :: xs ++ [h] = [] ++ h :: x :: n :: r := by rw [List.cons_append, List.cons_append, e]; rfl
  rw [this]
  refine path_insert hr hi d1 d2 ?_
  rw [← e0]
  simp only [List.mem_append, List.mem_cons, List.cons_append, List.not_mem_nil, or_false, not_or] at hx ⊢
  exact ⟨hx.1, hx.2, hx.1⟩

theorem ring_remove {m m' : Mem} {h x a b : Ptr} {xs ys : List Ptr} (hd : (h :: (xs ++ x :: ys)).Nodup) (hr : Ring m h (xs ++ x :: ys))
    (ha : ∃ l, h :: xs = l ++ [a]) (hb : ∃ r, ys ++ [h] = b :: r) (hi : Removed m m' a b) : Ring m' h (xs ++ ys) := by
  obtain ⟨l, ea⟩ := ha
  obtain ⟨r, eb⟩ := hb
  unfold Ring at hr ⊢
  obtain ⟨d1, d2⟩ := ring_nodup hd
  have e0 : h :: (xs ++ x :: ys) ++ [h] = l ++ a :: x :: b :: r := by
    rw [show h :: (xs ++ x :: ys) ++ [h] = (h :: xs) ++ x :: (ys ++ [h]) by simp, ea, eb]; simp
  rw [e0] at hr d1 d2
  have e1 : h :: (xs ++ ys) ++ [h] = l ++ a :: b :: r := by
    rw [show h :: (xs ++ ys) ++ [h] = (h :: xs) ++ (ys ++ [h]) by simp, ea, eb]; simp
  rw [e1]
  exact path_remove hr hi d1 d2

theorem last_of (h : Ptr) (xs : List Ptr) : ∃ p l, h :: xs = l ++ [p] :=
  ⟨(h :: xs).getLast (by simp), (h :: xs).dropLast, (List.dropLast_concat_getLast (by simp)).symm⟩

theorem first_of (h : Ptr) (xs : List Ptr) : ∃ n r, xs ++ [h] = n :: r := by
  cases xs with
  | nil => exact ⟨h, [], rfl⟩
  | cons x xs => exact ⟨x, xs ++ [h], rfl⟩

/-- The last element and the head. -/
theorem ring_last {m : Mem} {h p : Ptr} {xs l : List Ptr} (hr : Ring m h xs) (e : h :: xs = l ++ [p]) : Edge m p h := by
  unfold Ring at hr
  rw [e, show l ++ [p] ++ [h] = l ++ p :: h :: [] by simp] at hr
  exact (path_split.1 hr).2.1

/-- The head and the first element. -/
theorem ring_first {m : Mem} {h n : Ptr} {xs r : List Ptr} (hr : Ring m h xs) (e : xs ++ [h] = n :: r) : Edge m h n := by
  unfold Ring at hr
  rw [List.cons_append, e] at hr
  exact hr.1

theorem ring_at {m : Mem} {h x a b : Ptr} {xs ys l r : List Ptr} (hr : Ring m h (xs ++ x :: ys)) (ea : h :: xs = l ++ [a])
    (eb : ys ++ [h] = b :: r) : Edge m a x ∧ Edge m x b := by
  unfold Ring at hr
  have e0 : h :: (xs ++ x :: ys) ++ [h] = l ++ a :: x :: b :: r := by
    rw [show h :: (xs ++ x :: ys) ++ [h] = (h :: xs) ++ x :: (ys ++ [h]) by simp, ea, eb]; simp
  rw [e0] at hr
  have := path_split.1 hr
  exact ⟨this.2.1, this.2.2.1⟩

theorem path_alloc {m : Mem} : ∀ {l : List Ptr}, Path m l → ∀ a ∈ l.dropLast, ∃ u, nx m a = some u
  | [], _, _, h => by simp at h
  | [_], _, _, h => by simp at h
  | a :: b :: l, hp, c, hc => by
    rw [List.dropLast_cons_cons] at hc
    rcases List.mem_cons.1 hc with rfl | hc
    · exact ⟨b, (edge_iff.1 hp.1).1⟩
    · exact path_alloc (l := b :: l) hp.2 c hc

theorem ring_alloc {m : Mem} {h : Ptr} {xs : List Ptr} (hr : Ring m h xs) : ∀ a ∈ h :: xs, ∃ u, nx m a = some u := by
  intro a ha
  refine path_alloc hr a ?_
  rw [List.dropLast_concat]
  exact ha

theorem alloc_iff {m : Mem} {a : Ptr} : (∃ l, m a = some l) ↔ ∃ u, nx m a = some u := by
  unfold nx
  cases m a <;> simp

/-! The lists and links after a change. -/

theorem with_cases {w : World} {h k : Ptr} {f : List Ptr → List Ptr} {xs zs : List Ptr} (hl : w.lists h = some xs)
    (e : with_ w h f k = some zs) : (k = h ∧ zs = f xs) ∨ (k ≠ h ∧ w.lists k = some zs) := by
  unfold with_ at e
  split at e
  · rename_i hk; subst hk; rw [hl] at e; simp at e; exact .inl ⟨rfl, e.symm⟩
  · exact .inr ⟨‹_›, e⟩

theorem has_change {m m' : Mem} {w : World} {h : Ptr} {xs : List Ptr} {f : List Ptr → List Ptr} {out' : Ptr → Prop}
    (hh : Has m w) (hl : w.lists h = some xs) (hr : Ring m' h (f xs)) (hn : (h :: f xs).Nodup)
    (hmem : ∀ a ∈ f xs, a ∈ xs ∨ w.out a) (hout : ∀ a, out' a → (w.out a ∨ a ∈ xs) ∧ a ∉ h :: f xs)
    (hfr : ∀ k zs, k ≠ h → w.lists k = some zs → ∀ a ∈ k :: zs, nx m' a = nx m a ∧ pv m' a = pv m a)
    (hal : ∀ a, out' a → ∃ u, nx m' a = some u) : Has m' ⟨with_ w h f, out'⟩ := by
  have hap := hh.apart
  have hmem' : ∀ a ∈ h :: f xs, a ∈ h :: xs ∨ w.out a := by
    intro a ha
    rcases List.mem_cons.1 ha with rfl | ha
    · exact .inl (by simp)
    · rcases hmem a ha with h | h
      · exact .inl (by simp [h])
      · exact .inr h
  refine ⟨⟨?_, ?_, ?_, ?_, ?_⟩, ?_, ?_⟩
  · intro k zs e
    rcases with_cases hl e with ⟨rfl, rfl⟩ | ⟨_, e₁⟩
    · exact hn
    · exact hap.nodup _ _ e₁
  · intro k zs k' zs' e e' hne a ha ha'
    rcases with_cases hl e with ⟨rfl, rfl⟩ | ⟨_, e₁⟩
    · rcases with_cases hl e' with ⟨rfl, rfl⟩ | ⟨_, e'⟩
      · exact hne rfl
      · rcases hmem' a ha with ha | ha
        · exact hap.lists _ _ _ _ hl e' hne a ha ha'
        · exact hap.out _ _ e' a ha' ha
    · rcases with_cases hl e' with ⟨rfl, rfl⟩ | ⟨_, e'⟩
      · rcases hmem' a ha' with ha' | ha'
        · exact hap.lists _ _ _ _ e₁ hl hne a ha ha'
        · exact hap.out _ _ e₁ a ha ha'
      · exact hap.lists _ _ _ _ e₁ e' hne a ha ha'
  · intro k zs e a ha ho
    rcases with_cases hl e with ⟨rfl, rfl⟩ | ⟨hk, e₁⟩
    · exact (hout a ho).2 ha
    · rcases (hout a ho).1 with h | h
      · exact hap.out _ _ e₁ a ha h
      · exact hap.lists _ _ _ _ e₁ hl hk a ha (by simp [h])
  · intro k zs e a ha
    rcases with_cases hl e with ⟨rfl, rfl⟩ | ⟨hk, e₁⟩
    · rcases hmem' a ha with ha | ha
      · exact hap.null.1 _ _ hl a ha
      · exact hap.null.2 _ ha
    · exact hap.null.1 _ _ e₁ a ha
  · intro a ho
    rcases (hout a ho).1 with h | h
    · exact hap.null.2 _ h
    · exact hap.null.1 _ _ hl a (by simp [h])
  · intro k zs e
    rcases with_cases hl e with ⟨rfl, rfl⟩ | ⟨hk, e₁⟩
    · exact hr
    · exact ring_frame (fun a ha => (hfr _ _ hk e₁ a ha).1) (fun a ha => (hfr _ _ hk e₁ a ha).2) (hh.rings _ _ e₁)
  · intro a ho
    exact alloc_iff.2 (hal a ho)

theorem has_insert {m m' : Mem} {w : World} {h x a b : Ptr} {xs : List Ptr} {f : List Ptr → List Ptr} (hh : Has m w)
    (hl : w.lists h = some xs) (hx : w.out x) (hi : Inserted m m' a x b) (ha : a ∈ h :: xs) (hb : b ∈ h :: xs)
    (hr : Ring m' h (f xs)) (hf : (f xs).Perm (x :: xs)) : Has m' ⟨with_ w h f, fun a => w.out a ∧ a ≠ x⟩ := by
  have hxs : x ∉ h :: xs := fun hm => hh.apart.out _ _ hl x hm hx
  refine has_change hh hl hr ?_ ?_ ?_ ?_ ?_
  · rw [(hf.cons h).nodup_iff, (List.Perm.swap x h xs).nodup_iff, List.nodup_cons]
    exact ⟨hxs, hh.apart.nodup _ _ hl⟩
  · intro c hc
    rcases List.mem_cons.1 (hf.mem_iff.1 hc) with rfl | hc
    · exact .inr hx
    · exact .inl hc
  · intro c hc
    refine ⟨.inl hc.1, fun hm => ?_⟩
    rcases List.mem_cons.1 hm with rfl | hm
    · exact hh.apart.out _ _ hl c (by simp) hc.1
    · rcases List.mem_cons.1 (hf.mem_iff.1 hm) with rfl | hm
      · exact hc.2 rfl
      · exact hh.apart.out _ _ hl c (by simp [hm]) hc.1
  · intro k zs hk e c hc
    have h1 : c ≠ a := by rintro rfl; exact hh.apart.lists _ _ _ _ e hl hk c hc ha
    have h2 : c ≠ b := by rintro rfl; exact hh.apart.lists _ _ _ _ e hl hk c hc hb
    have h3 : c ≠ x := by rintro rfl; exact hh.apart.out _ _ e c hc hx
    rw [hi.nx, hi.pv, if_neg h1, if_neg h2, if_neg h3, if_neg h3]
    exact ⟨rfl, rfl⟩
  · intro c hc
    rw [hi.nx]
    split
    · exact ⟨_, rfl⟩
    · split
      · exact ⟨_, rfl⟩
      · exact alloc_iff.1 (hh.out _ hc.1)

/-- What is at the two sides of an element. -/
theorem sides {h x a b : Ptr} {xs ys l r : List Ptr} (ea : h :: xs = l ++ [a]) (eb : ys ++ [h] = b :: r)
    (hn : (h :: (xs ++ x :: ys)).Nodup) :
    a ∈ h :: (xs ++ x :: ys) ∧ b ∈ h :: (xs ++ x :: ys) ∧ x ≠ a ∧ x ≠ b := by
  have ha : a ∈ h :: xs := by rw [ea]; simp
  have hb : b ∈ ys ++ [h] := by rw [eb]; simp
  have hn' : ((h :: xs) ++ x :: ys).Nodup := hn
  rw [List.nodup_append] at hn'
  refine ⟨?_, ?_, ?_, ?_⟩
  · rcases List.mem_cons.1 ha with h | h <;> simp [h]
  · rcases List.mem_append.1 hb with h | h
    · simp [h]
    · simp at h; simp [h]
  · rintro rfl
    exact hn'.2.2 x ha x (by simp) rfl
  · rintro rfl
    rcases List.mem_append.1 hb with h | h
    · exact (List.nodup_cons.1 hn'.2.1).1 h
    · simp at h
      subst h
      exact hn'.2.2 x (by simp) x (by simp) rfl

theorem filter_nodup {h x : Ptr} {xs ys : List Ptr} (hn : (h :: (xs ++ x :: ys)).Nodup) :
    (h :: (xs ++ ys)).Nodup ∧ x ∉ h :: (xs ++ ys) := by
  have hp : (h :: (xs ++ x :: ys)).Perm (x :: h :: (xs ++ ys)) :=
    ((List.perm_middle).cons h).trans (List.Perm.swap x h _)
  rw [hp.nodup_iff, List.nodup_cons] at hn
  exact ⟨hn.2, hn.1⟩

/-- A link is taken out. -/
theorem has_remove {m : Mem} {w : World} {h x : Ptr} {xs ys : List Ptr} (hh : Has m w)
    (hl : w.lists h = some (xs ++ x :: ys)) :
    ∃ m', list_unlink m x = .ok m' ∧ Has m' ⟨with_ w h (fun _ => xs ++ ys), fun a => w.out a ∨ a = x⟩ := by
  obtain ⟨a, l, ea⟩ := last_of h xs
  obtain ⟨b, r, eb⟩ := first_of h ys
  have hring := hh.rings _ _ hl
  have hn := hh.apart.nodup _ _ hl
  obtain ⟨s1, s2, s3, s4⟩ := sides ea eb hn
  obtain ⟨g1, g2⟩ := ring_at hring ea eb
  obtain ⟨m', e, hi⟩ := unlink_ok g1 g2 s3
  refine ⟨m', e, has_change hh hl (ring_remove hn hring ⟨l, ea⟩ ⟨r, eb⟩ hi) (filter_nodup hn).1 ?_ ?_ ?_ ?_⟩
  · intro c hc
    refine .inl ?_
    rcases List.mem_append.1 hc with h | h <;> simp [h]
  · rintro c (hc | rfl)
    · refine ⟨.inl hc, fun hm => hh.apart.out _ _ hl c ?_ hc⟩
      simp only [List.mem_cons, List.mem_append] at hm ⊢
      rcases hm with h | h | h <;> simp [h]
    · exact ⟨.inr (by simp), (filter_nodup hn).2⟩
  · intro k zs hk e c hc
    have h1 : c ≠ a := by rintro rfl; exact hh.apart.lists _ _ _ _ e hl hk c hc s1
    have h2 : c ≠ b := by rintro rfl; exact hh.apart.lists _ _ _ _ e hl hk c hc s2
    rw [hi.nx, hi.pv, if_neg h1, if_neg h2]
    exact ⟨rfl, rfl⟩
  · intro c hc
    rw [hi.nx]
    split
    · exact ⟨_, rfl⟩
    · rcases hc with hc | rfl
      · exact alloc_iff.1 (hh.out _ hc)
      · exact ring_alloc hring _ (by simp)

/-- A link that is in no list is given back. -/
theorem has_free {m : Mem} {w : World} {x : Ptr} (hh : Has m ⟨w.lists, fun a => w.out a ∨ a = x⟩) (hx : ¬ w.out x) : Has (free m x) w := by
  refine ⟨⟨hh.apart.nodup, hh.apart.lists, fun h xs e a ha ho => hh.apart.out h xs e a ha (.inl ho), hh.apart.null.1,
    fun a ho => hh.apart.null.2 a (.inl ho)⟩, ?_, ?_⟩
  · intro h xs e
    have : ∀ a ∈ h :: xs, free m x a = m a := by
      intro a ha
      have : a ≠ x := by rintro rfl; exact hh.apart.out h xs e a ha (.inr rfl)
      unfold free
      rw [if_neg this]
    exact ring_frame (fun a ha => by unfold nx; rw [this a ha]) (fun a ha => by unfold pv; rw [this a ha]) (hh.rings h xs e)
  · intro a ho
    have : a ≠ x := by rintro rfl; exact hx ho
    unfold free
    rw [if_neg this]
    exact hh.out a (.inl ho)

theorem has_init {m : Mem} {w : World} {x : Ptr} (hh : Has m w) (hx : w.out x) :
    ∃ m', list_init m x = .ok m' ∧ Has m' ⟨fun k => if k = x then some [] else w.lists k, fun a => w.out a ∧ a ≠ x⟩ := by
  obtain ⟨u, hu⟩ := alloc_iff.1 (hh.out x hx)
  obtain ⟨m', e, n, p⟩ := init_ok hu
  have hap := hh.apart
  have hc : ∀ {k zs}, (if k = x then some [] else w.lists k) = some zs → (k = x ∧ zs = []) ∨ (k ≠ x ∧ w.lists k = some zs) := by
    intro k zs e
    split at e
    · simp at e; exact .inl ⟨‹_›, e⟩
    · exact .inr ⟨‹_›, e⟩
  refine ⟨m', e, ⟨?_, ?_, ?_, ?_, ?_⟩, ?_, ?_⟩
  · intro k zs e
    rcases hc e with ⟨rfl, rfl⟩ | ⟨_, e₁⟩
    · simp
    · exact hap.nodup _ _ e₁
  · intro k zs k' zs' e e' hne a ha ha'
    rcases hc e with ⟨rfl, rfl⟩ | ⟨_, e₁⟩
    · simp at ha; subst ha
      rcases hc e' with ⟨rfl, rfl⟩ | ⟨_, e'⟩
      · exact hne rfl
      · exact hap.out _ _ e' _ ha' hx
    · rcases hc e' with ⟨rfl, rfl⟩ | ⟨_, e'⟩
      · simp at ha'; subst ha'
        exact hap.out _ _ e₁ _ ha hx
      · exact hap.lists _ _ _ _ e₁ e' hne a ha ha'
  · intro k zs e a ha ho
    rcases hc e with ⟨rfl, rfl⟩ | ⟨_, e₁⟩
    · simp at ha; exact ho.2 ha
    · exact hap.out _ _ e₁ a ha ho.1
  · intro k zs e a ha
    rcases hc e with ⟨rfl, rfl⟩ | ⟨_, e₁⟩
    · simp at ha; subst ha; exact hap.null.2 _ hx
    · exact hap.null.1 _ _ e₁ a ha
  · intro a ho
    exact hap.null.2 a ho.1
  · intro k zs e
    rcases hc e with ⟨rfl, rfl⟩ | ⟨_, e₁⟩
    · refine ⟨?_, trivial⟩
      rw [edge_iff, n, p, if_pos rfl, if_pos rfl]
      exact ⟨rfl, rfl⟩
    · have : ∀ a ∈ k :: zs, a ≠ x := by
        rintro a ha rfl
        exact hap.out _ _ e₁ a ha hx
      exact ring_frame (fun a ha => by rw [n, if_neg (this a ha)]) (fun a ha => by rw [p, if_neg (this a ha)]) (hh.rings _ _ e₁)
  · intro a ho
    rw [alloc_iff, n, if_neg ho.2]
    exact alloc_iff.1 (hh.out a ho.1)

/-! Operations. -/

theorem exec_ok {m : Mem} {w : World} {op : Op} {w' : World} {r : Option Ptr} (hh : Has m w) (ha : Allowed w op) (hd : Does w op w' r) :
    ∃ m', exec m op = .ok (m', r) ∧ Has m' w' := by
  cases hd with
  | init x =>
    obtain ⟨m', e, h⟩ := has_init hh ha
    exact ⟨m', by simp only [exec]; rw [e, Res.bind_ok], h⟩
  | append h x =>
    obtain ⟨hx, xs, hl⟩ := ha
    obtain ⟨p, l, ep⟩ := last_of h xs
    have hring := hh.rings _ _ hl
    have hxs : x ∉ h :: xs := fun hm => hh.apart.out _ _ hl x hm hx
    have hpm : p ∈ h :: xs := by rw [ep]; simp
    obtain ⟨u, hu⟩ := alloc_iff.1 (hh.out x hx)
    have he := edge_iff.1 (ring_last hring ep)
    obtain ⟨m', e, hi⟩ := append_ok hu he.2 he.1 (by rintro rfl; exact hxs (by simp)) (by rintro rfl; exact hxs hpm)
    refine ⟨m', by simp only [exec]; rw [e, Res.bind_ok], has_insert (f := (· ++ [x])) hh hl hx hi hpm (by simp) ?_ ?_⟩
    · exact ring_append (hh.apart.nodup _ _ hl) hxs hring ⟨l, ep⟩ hi
    · exact List.perm_append_comm
  | push h x =>
    obtain ⟨hx, xs, hl⟩ := ha
    obtain ⟨n, r, en⟩ := first_of h xs
    have hring := hh.rings _ _ hl
    have hxs : x ∉ h :: xs := fun hm => hh.apart.out _ _ hl x hm hx
    have hnm : n ∈ h :: xs := by
      have : n ∈ xs ++ [h] := by rw [en]; simp
      rcases List.mem_append.1 this with h | h
      · simp [h]
      · simp at h; simp [h]
    obtain ⟨u, hu⟩ := alloc_iff.1 (hh.out x hx)
    have he := edge_iff.1 (ring_first hring en)
    obtain ⟨m', e, hi⟩ := push_ok hu he.1 he.2 (by rintro rfl; exact hxs (by simp)) (by rintro rfl; exact hxs hnm)
    refine ⟨m', by simp only [exec]; rw [e, Res.bind_ok], has_insert (f := (x :: ·)) hh hl hx hi (by simp) hnm ?_ ?_⟩
    · exact ring_push (hh.apart.nodup _ _ hl) hxs hring ⟨r, en⟩ hi
    · exact List.Perm.refl _
  | unlink h x xs ys hl =>
    obtain ⟨m', e, h⟩ := has_remove hh hl
    exact ⟨m', by simp only [exec]; rw [e, Res.bind_ok], h⟩
  | pop h x xs hl =>
    obtain ⟨m', e, h'⟩ := has_remove (xs := []) hh hl
    refine ⟨m', ?_, h'⟩
    have he := edge_iff.1 (ring_first (n := x) (r := xs ++ [h]) (hh.rings _ _ hl) rfl)
    simp only [exec, list_pop]
    rw [next_ok he.1, Res.bind_ok, e, Res.bind_ok, Res.bind_ok]

theorem execAll_ok {m : Mem} {w : World} {ops : List Op} {w' : World} {rs : List (Option Ptr)} (hh : Has m w) (hr : Run w ops w' rs) :
    ∃ m', execAll m ops = .ok (m', rs) ∧ Has m' w' := by
  induction hr generalizing m with
  | nil w => exact ⟨m, rfl, hh⟩
  | cons w op w' r ops w'' rs ha hd _ ih =>
    obtain ⟨m1, e1, h1⟩ := exec_ok hh ha hd
    obtain ⟨m2, e2, h2⟩ := ih h1
    exact ⟨m2, by simp only [execAll]; rw [e1, Res.bind_ok, e2, Res.bind_ok], h2⟩

/-! Questions and loops. -/

theorem empty_ok {m : Mem} {h : Ptr} {xs : List Ptr} (hr : Ring m h xs) (hn : (h :: xs).Nodup) :
    list_empty m h = .ok (decide (xs = [])) := by
  obtain ⟨n, r, en⟩ := first_of h xs
  have he := edge_iff.1 (ring_first hr en)
  unfold list_empty
  rw [next_ok he.1, Res.bind_ok]
  cases xs with
  | nil =>
    simp at en
    obtain ⟨rfl, _⟩ := en
    rw [if_pos rfl, prev_ok he.2, Res.bind_ok]
    simp
  | cons x xs =>
    simp at en
    obtain ⟨rfl, _⟩ := en
    rw [if_neg (by rintro rfl; simp at hn)]
    simp

theorem is_last_ok {m : Mem} {h x : Ptr} {xs ys : List Ptr} (hr : Ring m h (xs ++ x :: ys)) (hn : (h :: (xs ++ x :: ys)).Nodup) :
    list_is_last m h x = .ok (decide (ys = [])) := by
  obtain ⟨a, l, ea⟩ := last_of h xs
  obtain ⟨b, r, eb⟩ := first_of h ys
  have he := edge_iff.1 (ring_at hr ea eb).2
  unfold list_is_last
  rw [next_ok he.1, Res.bind_ok]
  cases ys with
  | nil => simp at eb; simp [eb.1]
  | cons y ys =>
    simp at eb
    obtain ⟨rfl, _⟩ := eb
    have : y ≠ h := by rintro rfl; simp at hn
    simp [this]

theorem foreach_from {m : Mem} {h : Ptr} : ∀ (xs : List Ptr) (i : Ptr) (r : List Ptr) (fuel : Nat), (∀ x ∈ xs, x ≠ h) →
    xs ++ [h] = i :: r → Path m (xs ++ [h]) → xs.length < fuel → foreachFrom next h (fun m _ => .ok m) fuel m i = .ok (m, xs)
  | _, _, _, 0, _, _, _, hf => by omega
  | [], i, r, fuel + 1, _, e, _, _ => by
    simp at e
    unfold foreachFrom
    rw [if_pos e.1.symm]
  | x :: xs, i, r, fuel + 1, hne, e, hp, hf => by
    simp at e
    obtain ⟨rfl, e⟩ := e
    obtain ⟨n, r', en⟩ := first_of h xs
    unfold foreachFrom
    rw [if_neg (hne x (by simp)), Res.bind_ok]
    simp only [List.cons_append] at hp
    rw [en] at hp
    rw [next_ok (edge_iff.1 hp.1).1, Res.bind_ok,
      foreach_from xs n r' fuel (fun y hy => hne y (by simp [hy])) en (by rw [en]; exact hp.2) (by simp at hf; omega), Res.bind_ok]

theorem foreach_rev {m : Mem} {h : Ptr} : ∀ (n : Nat) (xs : List Ptr) (i : Ptr) (l : List Ptr) (fuel : Nat), xs.length = n →
    (∀ x ∈ xs, x ≠ h) → h :: xs = l ++ [i] → Path m (h :: xs) → xs.length < fuel →
    foreachFrom prev h (fun m _ => .ok m) fuel m i = .ok (m, xs.reverse)
  | _, _, _, _, 0, _, _, _, _, hf => by omega
  | 0, xs, i, l, fuel + 1, hl, _, e, _, _ => by
    have : xs = [] := List.length_eq_zero_iff.1 hl
    subst this
    have : i = h := by
      cases l with
      | nil => simp at e; exact e.symm
      | cons a l => simp at e
    subst this
    unfold foreachFrom
    rw [if_pos rfl]
    rfl
  | n + 1, xs, i, l, fuel + 1, hl, hne, e, hp, hf => by
    have hxs : xs ≠ [] := by rintro rfl; simp at hl
    obtain ⟨ys, y, rfl⟩ : ∃ ys y, xs = ys ++ [y] := ⟨xs.dropLast, xs.getLast hxs, (List.dropLast_concat_getLast hxs).symm⟩
    have e2 : (h :: ys) ++ [y] = l ++ [i] := e
    obtain ⟨rfl, e3⟩ := List.append_inj' e2 rfl
    simp at e3
    subst e3
    obtain ⟨p, l', ep⟩ := last_of h ys
    unfold foreachFrom
    rw [if_neg (hne y (by simp)), Res.bind_ok]
    have hp' : Path m (l' ++ p :: y :: []) := by
      have : h :: (ys ++ [y]) = l' ++ p :: y :: [] := by rw [show h :: (ys ++ [y]) = (h :: ys) ++ [y] by simp, ep]; simp
      rw [← this]; exact hp
    have hq := path_split.1 hp'
    have hl' : ys.length = n := by simp at hl; exact hl
    rw [prev_ok (edge_iff.1 hq.2.1).2, Res.bind_ok,
      foreach_rev n ys p l' fuel hl' (fun z hz => hne z (by simp [hz])) ep (by rw [ep]; exact hq.1) (by simp at hf; omega), Res.bind_ok]
    simp

theorem with_with (w : World) (h : Ptr) (o : Ptr → Prop) (a b : List Ptr) (hl : ∃ xs, w.lists h = some xs) :
    with_ ⟨with_ w h (fun _ => a), o⟩ h (fun _ => b) = with_ w h (fun _ => b) := by
  obtain ⟨xs, hl⟩ := hl
  funext k
  unfold with_
  dsimp only
  split
  · rename_i hk; subst hk; rw [hl]; rfl
  · rfl

theorem with_self (w : World) (h : Ptr) (xs : List Ptr) (hl : w.lists h = some xs) : with_ w h (fun _ => xs) = w.lists := by
  funext k
  unfold with_
  split
  · rename_i hk; subst hk; rw [hl]; rfl
  · rfl

theorem with_get (w : World) (h : Ptr) (a xs : List Ptr) (hl : w.lists h = some xs) : with_ w h (fun _ => a) h = some a := by
  unfold with_
  rw [if_pos rfl, hl]; rfl

theorem foreach_safe {h : Ptr} {sel : Ptr → Bool} : ∀ (rest : List Ptr) (done : List Ptr) (m : Mem) (w : World) (i : Ptr) (r : List Ptr)
    (fuel : Nat), Has m w → w.lists h = some (done ++ rest) → rest ++ [h] = i :: r → rest.length < fuel →
    ∃ m', foreachSafeFrom h (remove sel) fuel m i = .ok (m', rest) ∧
      Has m' ⟨with_ w h (fun _ => done ++ rest.filter (! sel ·)), w.out⟩
  | _, _, _, _, _, _, 0, _, _, _, hf => by omega
  | [], done, m, w, i, r, fuel + 1, hh, hl, e, _ => by
    simp at e
    refine ⟨m, by unfold foreachSafeFrom; rw [if_pos e.1.symm], ?_⟩
    rw [List.filter_nil, with_self w h _ hl]
    exact hh
  | x :: rest, done, m, w, i, r, fuel + 1, hh, hl, e, hf => by
    simp at e
    obtain ⟨rfl, e⟩ := e
    have hn := hh.apart.nodup _ _ hl
    obtain ⟨a, l, ea⟩ := last_of h done
    obtain ⟨b, r', eb⟩ := first_of h rest
    have hxb := edge_iff.1 (ring_at (hh.rings _ _ hl) ea eb).2
    have hb := (sides ea eb hn).2.1
    have hxh : x ≠ h := by rintro rfl; simp at hn
    unfold foreachSafeFrom
    rw [if_neg hxh, next_ok hxb.1, Res.bind_ok, if_neg (hh.apart.null.1 _ _ hl b hb)]
    unfold remove
    cases hs : sel x with
    | false =>
      obtain ⟨m', e', h'⟩ := foreach_safe (h := h) (sel := sel) rest (done ++ [x]) m w b r' fuel hh (by rw [hl]; simp) eb (by simp at hf; omega)
      unfold remove at e'
      refine ⟨m', ?_, ?_⟩
      · simp only [Bool.false_eq_true, if_false]
        rw [Res.bind_ok, e', Res.bind_ok]
      · have : done ++ List.filter (! sel ·) (x :: rest) = done ++ [x] ++ List.filter (! sel ·) rest := by
          rw [List.filter_cons, hs]; simp
        rw [this]
        exact h'
    | true =>
      obtain ⟨m1, e1, h1⟩ := has_remove hh hl
      have hx : ¬ w.out x := hh.apart.out _ _ hl x (by simp)
      have h2 : Has (free m1 x) ⟨with_ w h (fun _ => done ++ rest), w.out⟩ := has_free h1 hx
      obtain ⟨m', e', h'⟩ := foreach_safe (h := h) (sel := sel) rest done (free m1 x) _ b r' fuel h2 (with_get w h _ _ hl) eb (by simp at hf; omega)
      unfold remove at e'
      refine ⟨m', ?_, ?_⟩
      · simp only [if_true]
        rw [e1, Res.bind_ok, Res.bind_ok, e', Res.bind_ok]
      · have : done ++ List.filter (! sel ·) (x :: rest) = done ++ List.filter (! sel ·) rest := by
          rw [List.filter_cons, hs]; simp
        rw [this]
        rw [with_with w h _ _ _ ⟨_, hl⟩] at h'
        exact h'

theorem full : Full := by
  refine ⟨fun m w ops w' rs hh hr => execAll_ok hh hr, fun m w h xs hh hl => ?_⟩
  have hring := hh.rings _ _ hl
  have hn := hh.apart.nodup _ _ hl
  have hne : ∀ x ∈ xs, x ≠ h := by rintro x hx rfl; exact (List.nodup_cons.1 hn).1 hx
  refine ⟨empty_ok hring hn, fun x => ⟨?_, ?_⟩, fun x hx => ?_, fun fuel hf => ?_, fun fuel hf => ?_, fun fuel sel hf => ?_,
    fun x hx => ?_, ?_, ?_⟩
  · rintro ⟨e, hx⟩
    obtain ⟨s, t, rfl⟩ := List.append_of_mem hx
    rw [is_last_ok hring hn] at e
    simp at e
    exact ⟨s, by rw [e]⟩
  · rintro ⟨s, rfl⟩
    exact ⟨by rw [is_last_ok hring hn]; rfl, by simp⟩
  · obtain ⟨s, t, rfl⟩ := List.append_of_mem hx
    exact ⟨_, is_last_ok hring hn⟩
  · obtain ⟨n, r, en⟩ := first_of h xs
    unfold list_foreach
    rw [next_ok (edge_iff.1 (ring_first hring en)).1, Res.bind_ok]
    refine foreach_from xs n r fuel hne en ?_ hf
    unfold Ring at hring
    rw [List.cons_append, en] at hring
    rw [en]
    exact hring.2
  · obtain ⟨p, l, ep⟩ := last_of h xs
    unfold list_foreach_reverse
    rw [prev_ok (edge_iff.1 (ring_last hring ep)).2, Res.bind_ok]
    refine foreach_rev xs.length xs p l fuel rfl hne ep ?_ hf
    unfold Ring at hring
    rw [ep, show l ++ [p] ++ [h] = l ++ p :: h :: [] by simp] at hring
    rw [ep]
    exact (path_split.1 hring).1
  · obtain ⟨n, r, en⟩ := first_of h xs
    unfold list_foreach_safe
    rw [next_ok (edge_iff.1 (ring_first hring en)).1, Res.bind_ok]
    obtain ⟨m', e', h'⟩ := foreach_safe (sel := sel) xs [] m w n r fuel hh hl en hf
    refine ⟨m', e', ?_⟩
    have : with_ w h (fun _ => [] ++ xs.filter (! sel ·)) = with_ w h (·.filter (! sel ·)) := by
      funext k
      unfold with_
      split
      · rename_i hk; subst hk; rw [hl]; rfl
      · rfl
    rw [this] at h'
    exact h'
  · obtain ⟨m', e, h'⟩ := exec_ok hh (op := .append h x) ⟨hx, xs, hl⟩ (.append h x)
    simp only [exec] at e
    obtain ⟨m1, e1, e2⟩ := Res.bind_eq_ok.1 e
    simp at e2
    subst e2
    refine ⟨m1, ?_, h'⟩
    unfold cache_push
    rw [e1, Res.bind_ok]
    simp
  · rintro rfl
    rfl
  · rintro x ys rfl
    obtain ⟨m', e, h'⟩ := exec_ok hh (op := .pop h) ⟨x, ys, hl⟩ (.pop h x ys hl)
    simp only [exec] at e
    obtain ⟨⟨m1, y⟩, e1, e2⟩ := Res.bind_eq_ok.1 e
    simp at e2
    obtain ⟨rfl, rfl⟩ := e2
    refine ⟨m1, ?_, h'⟩
    unfold cache_pop
    rw [if_pos (by simp only [List.length_cons]; omega), e1, Res.bind_ok]
    simp

end Verif.C66
