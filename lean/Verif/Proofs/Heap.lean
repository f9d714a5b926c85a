import Verif.Spec.Heap

namespace Verif
namespace Pages

def keys (m : Pages) : List Nat := List.map (·.1) m

theorem get_some_mem {m : Pages} {a : Nat} {s : PageS} (h : get m a = some s) : a ∈ keys m := by
  unfold get at h
  cases hf : List.find? (fun x => x.1 == a) m with
  | none => rw [hf] at h; cases h
  | some x =>
    have h1 := List.find?_some hf
    have h2 := List.mem_of_find?_eq_some hf
    simp at h1
    exact List.mem_map.2 ⟨x, h2, h1⟩

theorem mem_get {m : Pages} {a : Nat} (h : a ∈ keys m) : ∃ s, get m a = some s := by
  unfold get
  cases hf : List.find? (fun x => x.1 == a) m with
  | some x => exact ⟨x.2, rfl⟩
  | none =>
    rw [List.find?_eq_none] at hf
    obtain ⟨x, h1, h2⟩ := List.mem_map.1 h
    have := hf x h1
    simp at this
    exact absurd h2 this

theorem get_none_iff {m : Pages} {a : Nat} : get m a = none ↔ a ∉ keys m := by
  constructor
  · intro h hm
    obtain ⟨s, hs⟩ := mem_get hm
    rw [h] at hs; cases hs
  · intro h
    cases hg : get m a with
    | none => rfl
    | some s => exact absurd (get_some_mem hg) h

theorem keys_put (m : Pages) (a : Nat) (s : PageS) : keys (put m a s) = keys m := by
  unfold keys put
  rw [List.map_map]
  apply List.map_congr_left
  intro x _
  dsimp only [Function.comp]
  split
  · rename_i h; exact h.symm
  · rfl

theorem length_put (m : Pages) (a : Nat) (s : PageS) : (put m a s).length = m.length := by
  unfold put; simp

theorem get_put (m : Pages) (a b : Nat) (s : PageS) :
    get (put m a s) b = if b = a ∧ a ∈ keys m then some s else get m b := by
  induction m with
  | nil => simp [put, get, keys]
  | cons x m ih =>
    have hput : put (x :: m) a s = (if x.1 = a then (a, s) else x) :: put m a s := rfl
    have hk : keys (x :: m) = x.1 :: keys m := rfl
    have hget : ∀ (y : Nat × PageS) (l : Pages) (c : Nat), get (y :: l) c = if y.1 = c then some y.2 else get l c := by
      intro y l c
      unfold get
      rw [List.find?_cons]
      by_cases hyc : y.1 = c
      · simp [hyc]
      · have : (y.1 == c) = false := by simp [hyc]
        rw [this]; simp [hyc]
    rw [hput, hget, hget, hk, ih]
    by_cases hx : x.1 = a
    · simp only [hx, if_true, List.mem_cons, true_or, and_true]
      by_cases hb : b = a
      · simp [hb]
      · have : a ≠ b := fun e => hb e.symm
        simp [hb, this]
    · simp only [hx, if_false, List.mem_cons]
      by_cases hb : b = a
      · subst hb
        simp [hx]
        have : b ≠ x.1 := fun e => hx e.symm
        simp [this]
      · simp [hb]

theorem get_put_ne (m : Pages) (a b : Nat) (s : PageS) (h : b ≠ a) : get (put m a s) b = get m b := by
  rw [get_put]; simp [h]

theorem get_put_eq (m : Pages) (a : Nat) (s t : PageS) (h : get m a = some t) : get (put m a s) a = some s := by
  rw [get_put]; simp [get_some_mem h]

theorem get_unmap_ne (m : Pages) (a b : Nat) (h : b ≠ a) : get (unmap m a) b = get m b := by
  unfold get unmap
  rw [List.find?_filter]
  congr 1
  induction m with
  | nil => rfl
  | cons x m ih =>
    rw [List.find?_cons, List.find?_cons, ih]
    by_cases hx : x.1 = b
    · simp [hx, h]
    · have : (x.1 == b) = false := by simp [hx]
      rw [this]; simp

theorem keys_unmap (m : Pages) (a : Nat) : keys (unmap m a) = (keys m).filter (fun x => x != a) := by
  unfold keys unmap
  rw [List.filter_map]
  rfl

theorem get_cons_ne (m : Pages) (a b : Nat) (s : PageS) (h : b ≠ a) : get ((a, s) :: m) b = get m b := by
  unfold get
  rw [List.find?_cons]
  have : (a == b) = false := by simp; exact fun e => h e.symm
  simp only [this]

theorem get_cons_eq (m : Pages) (a : Nat) (s : PageS) : get ((a, s) :: m) a = some s := by
  unfold get
  rw [List.find?_cons]
  simp

/-- The pages of `l` are linked from `p` in this order. -/
def Chain (m : Pages) : Option Nat → List Nat → Prop
  | p, [] => p = none
  | p, a :: l => p = some a ∧ ∃ s, get m a = some s ∧ Chain m s.next l

theorem Chain.congr {m m' : Pages} : ∀ {l p}, Chain m p l →
    (∀ a ∈ l, ∀ s, get m a = some s → ∃ s', get m' a = some s' ∧ s'.next = s.next) → Chain m' p l := by
  intro l
  induction l with
  | nil => intro p h _; exact h
  | cons a l ih =>
    intro p h hn
    obtain ⟨h1, s, h2, h3⟩ := h
    obtain ⟨s', h4, h5⟩ := hn a (by simp) s h2
    exact ⟨h1, s', h4, by rw [h5]; exact ih h3 (fun b hb => hn b (by simp [hb]))⟩

theorem Chain.congr' {m m' : Pages} {l p} (h : Chain m p l) (hn : ∀ a ∈ l, get m' a = get m a) : Chain m' p l :=
  h.congr (fun a ha s hs => ⟨s, by rw [hn a ha]; exact hs, rfl⟩)

theorem Chain.mem {m : Pages} : ∀ {l p}, Chain m p l → ∀ a ∈ l, a ∈ keys m := by
  intro l
  induction l with
  | nil => intro p _ a h; simp at h
  | cons b l ih =>
    intro p h a ha
    obtain ⟨_, s, h2, h3⟩ := h
    rcases List.mem_cons.1 ha with rfl | ha
    · exact get_some_mem h2
    · exact ih h3 a ha

/-- Linking the last page of a chain to another chain. -/
theorem Chain.append {m : Pages} {q : Option Nat} {l2 : List Nat} : ∀ {l p t} {s : PageS}, Chain m p (l ++ [t]) → (l ++ [t]).Nodup →
    get m t = some s → Chain m q l2 → t ∉ l2 → Chain (put m t { s with next := q }) p (l ++ [t] ++ l2) := by
  intro l
  induction l with
  | nil =>
    intro p t s h hnd hs h2 ht
    obtain ⟨h1, s', h3, h4⟩ := h
    refine ⟨h1, _, get_put_eq m t _ s hs, ?_⟩
    exact h2.congr' (fun a ha => get_put_ne _ _ _ _ (fun e => ht (e ▸ ha)))
  | cons a l ih =>
    intro p t s h hnd hs h2 ht
    obtain ⟨h1, s', h3, h4⟩ := h
    have hne : a ≠ t := by
      rw [List.cons_append] at hnd
      have := (List.nodup_cons.1 hnd).1
      intro e; apply this; simp [e]
    refine ⟨h1, s', by rw [get_put_ne _ _ _ _ hne]; exact h3, ?_⟩
    exact ih h4 (List.nodup_cons.1 hnd).2 hs h2 ht

theorem unmapChain_ok : ∀ {l : List Nat} {m : Pages} {p}, Chain m p l → l.Nodup →
    unmapChain m p = .ok (m.filter (fun x => !l.contains x.1)) := by
  intro l
  induction l with
  | nil =>
    intro m p h _
    have : p = none := h
    subst this
    rw [unmapChain]
    congr 1
    symm
    rw [List.filter_eq_self]
    intro x _; rfl
  | cons a l ih =>
    intro m p h hnd
    obtain ⟨h1, s, h2, h3⟩ := h
    subst h1
    have hnd' := List.nodup_cons.1 hnd
    rw [unmapChain]
    split
    · rename_i hg; rw [h2] at hg; cases hg
    · rename_i s' hg
      rw [h2] at hg; cases hg
      have hc : Chain (unmap m a) s.next l := h3.congr' (fun b hb => get_unmap_ne _ _ _ (fun e => hnd'.1 (e ▸ hb)))
      rw [ih hc hnd'.2]
      unfold unmap
      rw [List.filter_filter]
      congr 2
      funext x
      simp only [List.contains_cons, bne, Bool.not_or]
      rw [Bool.and_comm]

theorem get_filter (m : Pages) (l : List Nat) (b : Nat) (h : b ∉ l) :
    get (m.filter (fun x => !l.contains x.1)) b = get m b := by
  unfold get
  rw [List.find?_filter]
  congr 1
  induction m with
  | nil => rfl
  | cons x m ih =>
    rw [List.find?_cons, List.find?_cons, ih]
    by_cases hx : x.1 = b
    · simp [hx, h]
    · have : (x.1 == b) = false := by simp [hx]
      rw [this]; simp

theorem keys_filter (m : Pages) (l : List Nat) :
    keys (m.filter (fun x => !l.contains x.1)) = (keys m).filter (fun x => !l.contains x) := by
  unfold keys
  rw [List.filter_map]
  rfl

theorem walk_chain (m : Pages) : ∀ (l : List Nat) (p : Option Nat) (fuel : Nat), Chain m p l → l.length ≤ fuel → Mem.walk m fuel p = l := by
  intro l
  induction l with
  | nil => intro p fuel h _; rw [show p = none from h]; cases fuel <;> rfl
  | cons a l ih =>
    intro p fuel h hf
    obtain ⟨h1, s, h2, h3⟩ := h
    subst h1
    cases fuel with
    | zero => simp at hf
    | succ k =>
      unfold Mem.walk
      rw [h2]
      dsimp only
      rw [ih _ k h3 (by simpa using hf)]

end Pages

namespace Mem
open Pages

/-- Pages of the other heaps. -/
def rest (own : Nat → List Nat) (h n : Nat) : List Nat := (List.range n).flatMap (upd own h [])

theorem flatMap_congr' (ws : List Nat) (f g : Nat → List Nat) (h : ∀ w ∈ ws, f w = g w) : ws.flatMap f = ws.flatMap g := by
  induction ws with
  | nil => rfl
  | cons a ws ih =>
    rw [List.flatMap_cons, List.flatMap_cons, h a (by simp), ih (fun w hw => h w (by simp [hw]))]

theorem rest_upd (own : Nat → List Nat) (h n : Nat) (l : List Nat) : rest (upd own h l) h n = rest own h n := by
  unfold rest
  congr 1
  funext j
  unfold upd
  split <;> rfl

theorem split_perm (own : Nat → List Nat) (h n : Nat) (hn : h < n) :
    ((List.range n).flatMap own).Perm (own h ++ rest own h n) := by
  have gen : ∀ ws : List Nat, ws.Nodup → h ∈ ws → (ws.flatMap own).Perm (own h ++ ws.flatMap (upd own h [])) := by
    intro ws
    induction ws with
    | nil => intro _ h2; simp at h2
    | cons a ws ih =>
      intro hnd hm
      have hnd' := List.nodup_cons.1 hnd
      rw [List.flatMap_cons, List.flatMap_cons]
      by_cases e : a = h
      · subst e
        have : upd own a [] a = [] := by simp [upd]
        rw [this, List.nil_append, flatMap_congr' ws (upd own a []) own]
        intro w hw
        unfold upd
        rw [if_neg]
        intro e; exact hnd'.1 (e ▸ hw)
      · have hm' : h ∈ ws := by
          rcases List.mem_cons.1 hm with h1 | h1
          · exact absurd h1.symm e
          · exact h1
        have : upd own h [] a = own a := by simp [upd, e]
        rw [this]
        refine ((ih hnd'.2 hm').append_left (own a)).trans ?_
        rw [← List.append_assoc, ← List.append_assoc]
        exact List.perm_append_comm.append_right _
  exact gen _ List.nodup_range (List.mem_range.2 hn)

theorem mem_rest (own : Nat → List Nat) (h n j a : Nat) (hj : j < n) (hne : j ≠ h) (ha : a ∈ own j) : a ∈ rest own h n := by
  unfold rest
  rw [List.mem_flatMap]
  exact ⟨j, List.mem_range.2 hj, by simp [upd, hne, ha]⟩

/-- What holds of the manager and `n` heaps: `free` are the cached pages, `own h`
those of heap `h`, `loose` those taken but not yet linked. -/
structure Inv (n : Nat) (m : Mm) (heap : Nat → Heap) (loose free : List Nat) (own : Nat → List Nat) : Prop where
  nodup : (keys m.pages).Nodup
  perm : (keys m.pages).Perm (loose ++ (free ++ (List.range n).flatMap own))
  cfree : Chain m.pages m.freeList free
  nfree : m.freeCount = free.length
  cown : ∀ h, h < n → Chain m.pages (heap h).list (own h)
  tail : ∀ h, h < n → (heap h).tail = (own h).getLast?
  count : ∀ h, h < n → (heap h).count = (own h).length
  used : ∀ h, h < n → ∀ a ∈ own h, ∀ s, get m.pages a = some s → 0 ≤ s.used ∧ s.used ≤ m.pageSize
  loose : ∀ a ∈ loose, get m.pages a = some ⟨0, none⟩
  size : 0 < m.pageSize

variable {n : Nat} {m : Mm} {heap : Nat → Heap} {loose free : List Nat} {own : Nat → List Nat}

theorem Inv.nodups (i : Inv n m heap loose free own) (h : Nat) (hn : h < n) :
    (loose ++ (free ++ (own h ++ rest own h n))).Nodup :=
  (i.perm.trans (((split_perm own h n hn).append_left free).append_left loose)).nodup_iff.1 i.nodup

theorem Inv.facts (i : Inv n m heap loose free own) (h : Nat) (hn : h < n) :
    loose.Nodup ∧ free.Nodup ∧ (own h).Nodup ∧ (∀ a ∈ loose, a ∉ free ∧ a ∉ own h) ∧ (∀ a ∈ free, a ∉ own h) ∧
      (∀ a ∈ own h, ∀ j, j < n → j ≠ h → a ∉ own j) ∧ (∀ a ∈ loose, ∀ j, j < n → a ∉ own j) ∧ (∀ a ∈ free, ∀ j, j < n → a ∉ own j) := by
  have hd := i.nodups h hn
  rw [List.nodup_append, List.nodup_append, List.nodup_append] at hd
  obtain ⟨h1, ⟨h2, ⟨h3, h4, h5⟩, h6⟩, h7⟩ := hd
  have hr : ∀ j, j < n → ∀ a, a ∈ own j → a ∈ own h ++ rest own h n := by
    intro j hj a ha
    by_cases e : j = h
    · subst e; simp [ha]
    · exact List.mem_append.2 (.inr (mem_rest own h n j a hj e ha))
  refine ⟨h1, h2, h3, ?_, ?_, ?_, ?_, ?_⟩
  · intro a ha
    constructor
    · intro hf; exact h7 a ha a (by simp [hf]) rfl
    · intro hf; exact h7 a ha a (by simp [hf]) rfl
  · intro a ha hf; exact h6 a ha a (by simp [hf]) rfl
  · intro a ha j hj hne hf; exact h5 a ha a (mem_rest own h n j a hj hne hf) rfl
  · intro a ha j hj hf; exact h7 a ha a (List.mem_append.2 (.inr (hr j hj a hf))) rfl
  · intro a ha j hj hf; exact h6 a ha a (hr j hj a hf) rfl

theorem Inv.ofree (i : Inv n m heap loose free own) : loose.Nodup ∧ free.Nodup ∧ (∀ a ∈ loose, a ∉ free) ∧
    (∀ a ∈ loose, ∀ j, j < n → a ∉ own j) ∧ (∀ a ∈ free, ∀ j, j < n → a ∉ own j) := by
  have hd := i.perm.nodup_iff.1 i.nodup
  rw [List.nodup_append, List.nodup_append] at hd
  obtain ⟨h1, ⟨h2, h3, h4⟩, h5⟩ := hd
  have hm : ∀ j, j < n → ∀ a, a ∈ own j → a ∈ (List.range n).flatMap own := by
    intro j hj a ha
    exact List.mem_flatMap.2 ⟨j, List.mem_range.2 hj, ha⟩
  refine ⟨h1, h2, ?_, ?_, ?_⟩
  · intro a ha hf; exact h5 a ha a (by simp [hf]) rfl
  · intro a ha j hj hf; exact h5 a ha a (List.mem_append.2 (.inr (hm j hj a hf))) rfl
  · intro a ha j hj hf; exact h4 a ha a (hm j hj a hf) rfl

theorem keys_length (m : Pages) : (keys m).length = m.length := by unfold keys; simp

/-- Settings do not change. -/
structure Keep (m m' : Mm) : Prop where
  size : m'.pageSize = m.pageSize
  limit : m'.limit = m.limit
  wm : m'.limitWm = m.limitWm

theorem Keep.refl (m : Mm) : Keep m m := ⟨rfl, rfl, rfl⟩
theorem Keep.trans {a b c : Mm} (h1 : Keep a b) (h2 : Keep b c) : Keep a c :=
  ⟨h2.size.trans h1.size, h2.limit.trans h1.limit, h2.wm.trans h1.wm⟩

theorem pop_cache_ok (i : Inv n m heap [] free own) (hf : m.freeList.isSome = true) :
    ∃ m' a free', m.pop_cache = .ok (m', a) ∧ Inv n m' heap [a] free' own ∧ m'.count = m.count ∧ m'.pages.length = m.pages.length ∧
      Keep m m' ∧ (∀ h, h < n → a ∉ own h) ∧ (∀ b, b ≠ a → get m'.pages b = get m.pages b) := by
  cases free with
  | nil =>
    have := i.cfree
    rw [show m.freeList = none from this] at hf
    cases hf
  | cons a f =>
    obtain ⟨h1, s, h2, h3⟩ := i.cfree
    obtain ⟨_, hnd, _, _, hfo⟩ := i.ofree
    have hnd' := List.nodup_cons.1 hnd
    have hao : ∀ h, h < n → a ∉ own h := fun h hn => hfo a (by simp) h hn
    have heq : m.pop_cache = .ok ({ m with
             freeCount := m.freeCount - 1,
             freeList := s.next,
             pages := put m.pages a ⟨0, none⟩ }, a) := by
      unfold Mm.pop_cache
      rw [h1]
      dsimp only
      rw [h2]
    refine ⟨_, a, f, heq, ?_, rfl, length_put _ _ _, ⟨rfl, rfl, rfl⟩, hao, ?_⟩
    · constructor
      · dsimp only; rw [keys_put]; exact i.nodup
      · dsimp only; rw [keys_put]; exact i.perm
      · exact h3.congr' (fun b hb => get_put_ne _ _ _ _ (fun e => hnd'.1 (e ▸ hb)))
      · have := i.nfree
        dsimp only
        rw [List.length_cons] at this
        omega
      · intro h hn
        exact (i.cown h hn).congr' (fun b hb => get_put_ne _ _ _ _ (fun e => hao h hn (e ▸ hb)))
      · exact i.tail
      · exact i.count
      · intro h hn b hb s' hs'
        dsimp only at hs'
        have hba : b ≠ a := fun e => hao h hn (e ▸ hb)
        rw [get_put_ne _ _ _ _ hba] at hs'
        exact i.used h hn b hb s' hs'
      · intro b hb
        simp at hb
        subst hb
        exact get_put_eq _ _ _ _ h2
      · exact i.size
    · intro b hb; exact get_put_ne _ _ _ _ hb

/-- A page taken from mmap. -/
theorem map_ok (i : Inv n m heap [] free own) (a : Nat) (hfr : get m.pages a = none) (hits : Nat) (cnt : Int) :
    Inv n { m with count := cnt, hits := hits, pages := (a, ⟨0, none⟩) :: m.pages } heap [a] free own := by
  have hna : a ∉ keys m.pages := get_none_iff.1 hfr
  constructor
  · show (a :: keys m.pages).Nodup
    exact List.nodup_cons.2 ⟨hna, i.nodup⟩
  · show (a :: keys m.pages).Perm _
    exact i.perm.cons a
  · exact i.cfree.congr' (fun b hb => get_cons_ne _ _ _ _ (fun e => hna (e ▸ i.cfree.mem b hb)))
  · exact i.nfree
  · intro h hn
    exact (i.cown h hn).congr' (fun b hb => get_cons_ne _ _ _ _ (fun e => hna (e ▸ (i.cown h hn).mem b hb)))
  · exact i.tail
  · exact i.count
  · intro h hn b hb s' hs'
    dsimp only at hs'
    have hba : b ≠ a := fun e => hna (e ▸ (i.cown h hn).mem b hb)
    rw [get_cons_ne _ _ _ _ hba] at hs'
    exact i.used h hn b hb s' hs'
  · intro b hb
    simp at hb
    subst hb
    exact get_cons_eq _ _ _
  · exact i.size

/-- Changing counters only. -/
theorem Inv.counters (i : Inv n m heap loose free own) (hits : Nat) (cnt : Int) :
    Inv n { m with count := cnt, hits := hits } heap loose free own :=
  ⟨i.nodup, i.perm, i.cfree, i.nfree, i.cown, i.tail, i.count, i.used, i.loose, i.size⟩

/-- Allocation inside a page that belongs to heap `h`. -/
theorem bump_ok (i : Inv n m heap loose free own) (h : Nat) (hn : h < n) (a : Nat) (ha : a ∈ own h) (s : PageS)
    (hs : get m.pages a = some s) (size : Int) (h0 : 0 ≤ size) (hfit : s.used + size ≤ m.pageSize) :
    Heap.bump m a size = .ok ({ m with pages := put m.pages a { s with used := s.used + size } }, .at a s.used) ∧
    Inv n { m with pages := put m.pages a { s with used := s.used + size } } heap loose free own := by
  constructor
  · unfold Heap.bump; rw [hs]
  · have hnx : ∀ b s', get m.pages b = some s' →
        ∃ s'', get (put m.pages a { s with used := s.used + size }) b = some s'' ∧ s''.next = s'.next := by
      intro b s' hs'
      by_cases e : b = a
      · subst e
        rw [hs] at hs'; cases hs'
        exact ⟨_, get_put_eq _ _ _ _ hs, rfl⟩
      · exact ⟨s', by rw [get_put_ne _ _ _ _ e]; exact hs', rfl⟩
    constructor
    · dsimp only; rw [keys_put]; exact i.nodup
    · dsimp only; rw [keys_put]; exact i.perm
    · exact i.cfree.congr (fun b _ => hnx b)
    · exact i.nfree
    · intro h' hn'; exact (i.cown h' hn').congr (fun b _ => hnx b)
    · exact i.tail
    · exact i.count
    · intro h' hn' b hb s' hs'
      by_cases e : b = a
      · subst e
        dsimp only at hs'
        rw [get_put_eq _ _ _ _ hs] at hs'
        cases hs'
        have := i.used h hn b ha s hs
        dsimp only
        omega
      · dsimp only at hs'
        rw [get_put_ne _ _ _ _ e] at hs'
        exact i.used h' hn' b hb s' hs'
    · intro b hb
      have hne : b ≠ a := fun e => (i.facts h hn).2.2.2.1 b hb |>.2 (e ▸ ha)
      dsimp only
      rw [get_put_ne _ _ _ _ hne]
      exact i.loose b hb
    · exact i.size


/-- The limit on all pages, cached ones included. -/
def Bd (m : Mm) : Prop :=
  m.limit = true → m.limitWm < 9223372036854775808 → m.pageSize < 2147483648 → 0 ≤ m.count →
    m.count * m.pageSize < m.limitWm + m.pageSize

theorem pop_ok (i : Inv n m heap [] free own) (env : Option Nat) (hfr : fresh m env = true) (hc : 0 ≤ m.count) :
    ∃ m' r, m.pop env = .ok (m', r) ∧ Keep m m' ∧ (Bd m → Bd m') ∧
      match r with
      | .page a => (∃ free', Inv n m' heap [a] free' own) ∧ (∀ h, h < n → a ∉ own h) ∧
          (∀ b, b ≠ a → get m'.pages b = get m.pages b) ∧ m'.count - m'.pages.length = m.count - m.pages.length ∧ m.count ≤ m'.count
      | .wait => Inv n m' heap [] free own ∧ m'.pages = m.pages ∧ m'.count = m.count
      | .throw => Inv n m' heap [] free own ∧ m'.pages = m.pages ∧ (m'.count = m.count ∨ m'.count = m.count + 1 ∧ env = none) := by
  unfold Mm.pop
  by_cases hf : m.freeList.isSome = true
  · rw [if_pos hf]
    obtain ⟨m', a, free', h1, h2, h3, h4, h5, h6, h7⟩ := pop_cache_ok i hf
    rw [h1]
    refine ⟨m', .page a, rfl, h5, ?_, ⟨free', h2⟩, h6, h7, by rw [h3, h4], by rw [h3]; exact Int.le_refl _⟩
    intro hb hl hw hp h0
    have := hb (by rw [← h5.limit]; exact hl) (by rw [← h5.wm]; exact hw) (by rw [← h5.size]; exact hp) hc
    rw [h3, h5.size, h5.wm]; exact this
  · rw [if_neg hf]
    by_cases hl : m.limit = true ∧ wrapU64 (m.count * m.pageSize) ≥ m.limitWm
    · rw [if_pos hl]
      dsimp only
      by_cases hle : m.limitError = true
      case neg => rw [if_neg hle]; exact ⟨_, .wait, rfl, ⟨rfl, rfl, rfl⟩, fun hb => hb, i.counters _ _, rfl, rfl⟩
      case pos => rw [if_pos hle]; exact ⟨_, .throw, rfl, ⟨rfl, rfl, rfl⟩, fun hb => hb, i.counters _ _, rfl, .inl rfl⟩
    · rw [if_neg hl]
      have hbd : ∀ ps : Pages, Bd m → Bd { m with count := m.count + 1, pages := ps } := by
        intro ps hb hl' hw hp h0
        have h1 := hb hl' hw hp hc
        dsimp only at hl' hw hp h0 ⊢
        have h2 : ¬ wrapU64 (m.count * m.pageSize) ≥ m.limitWm := fun e => hl ⟨hl', e⟩
        have h3 : 0 ≤ m.count * m.pageSize := Int.mul_nonneg hc (Int.le_of_lt i.size)
        rw [Int.add_mul, Int.one_mul]
        generalize m.count * m.pageSize = x at *
        unfold wrapU64 at h2
        omega
      cases env with
      | none => exact ⟨_, .throw, rfl, ⟨rfl, rfl, rfl⟩, hbd m.pages, i.counters m.hits _, rfl, .inr ⟨rfl, rfl⟩⟩
      | some a =>
        have hfr' : get m.pages a = none := by
          unfold fresh at hfr
          dsimp only at hfr
          cases hg : get m.pages a with
          | none => rfl
          | some s => rw [hg] at hfr; cases hfr
        have hna : a ∉ keys m.pages := get_none_iff.1 hfr'
        refine ⟨_, .page a, rfl, ⟨rfl, rfl, rfl⟩, hbd _, ⟨free, map_ok i a hfr' m.hits _⟩, ?_, ?_, ?_, ?_⟩
        · intro h hn hm; exact hna ((i.cown h hn).mem a hm)
        · intro b hb; exact get_cons_ne _ _ _ _ hb
        · dsimp only; rw [List.length_cons]; omega
        · dsimp only; omega

/-- The pages of a heap stay with it and fill up. -/
def Mono (n : Nat) (m m' : Mm) (own own' : Nat → List Nat) : Prop :=
  (∀ j, j < n → ∀ b ∈ own j, b ∈ own' j) ∧
  (∀ j, j < n → ∀ b ∈ own j, ∀ s, get m.pages b = some s → ∃ s', get m'.pages b = some s' ∧ s.used ≤ s'.used)

/-- Linking a page that was just taken to heap `h`. -/
theorem grow_ok {m' : Mm} {a : Nat} {free' : List Nat} (i : Inv n m' heap [a] free' own) (h : Nat) (hn : h < n)
    (size : Int) (h0 : 0 ≤ size) (hs : size ≤ m'.pageSize) :
    ∃ h' m'', Heap.grow (heap h) size (m', .page a) = .ok (h', m'', .at a 0) ∧ Keep m' m'' ∧ m''.count = m'.count ∧
      m''.pages.length = m'.pages.length ∧ Inv n m'' (upd heap h h') [] free' (upd own h (own h ++ [a])) ∧
      (∃ s, get m''.pages a = some s ∧ s.used = size) ∧
      (∀ j, j < n → ∀ b ∈ own j, ∀ s, get m'.pages b = some s → ∃ s', get m''.pages b = some s' ∧ s'.used = s.used) := by
  have hga := i.loose a (by simp)
  obtain ⟨_, hfn, hon, hlo, hfo, hoo, hlj, hfj⟩ := i.facts h hn
  have hao : ∀ j, j < n → a ∉ own j := fun j hj => hlj a (by simp) j hj
  have hperm : ([a] ++ (free' ++ (List.range n).flatMap own)).Perm
      ([] ++ (free' ++ (List.range n).flatMap (upd own h (own h ++ [a])))) := by
    have h1 := split_perm own h n hn
    have h2 := split_perm (upd own h (own h ++ [a])) h n hn
    rw [rest_upd] at h2
    have h3 : upd own h (own h ++ [a]) h = own h ++ [a] := by simp [upd]
    rw [h3] at h2
    refine (((h1.append_left free').append_left [a])).trans ?_
    refine List.Perm.trans ?_ ((h2.append_left free').append_left []).symm
    rw [List.nil_append]
    refine List.perm_append_comm.trans ?_
    rw [List.append_assoc, List.append_assoc, List.append_assoc]
    refine List.Perm.append_left _ (List.Perm.append_left _ ?_)
    exact List.perm_append_comm
  -- the state once the page is linked
  have key : ∀ (ps : Pages) (h1 : Heap), keys ps = keys m'.pages →
      (∀ b, b ∉ own h → get ps b = get m'.pages b) →
      (∀ b ∈ own h, ∀ s, get m'.pages b = some s → ∃ s', get ps b = some s' ∧ s'.used = s.used) →
      Chain ps h1.list (own h ++ [a]) → h1.tail = some a → h1.count = ((own h).length + 1 : Nat) →
      ∃ m'', Heap.bump { m' with pages := ps } a size = .ok (m'', .at a 0) ∧ Keep m' m'' ∧ m''.count = m'.count ∧
        m''.pages.length = m'.pages.length ∧ Inv n m'' (upd heap h h1) [] free' (upd own h (own h ++ [a])) ∧
        (∃ s, get m''.pages a = some s ∧ s.used = size) ∧
        (∀ j, j < n → ∀ b ∈ own j, ∀ s, get m'.pages b = some s → ∃ s', get m''.pages b = some s' ∧ s'.used = s.used) := by
    intro ps h1 hk hne hin hch htl hct
    have hga' : get ps a = some ⟨0, none⟩ := by rw [hne a (hao h hn)]; exact hga
    have hi : Inv n { m' with pages := ps } (upd heap h h1) [] free' (upd own h (own h ++ [a])) := by
      constructor
      · dsimp only; rw [hk]; exact i.nodup
      · dsimp only; rw [hk]; exact i.perm.trans hperm
      · exact i.cfree.congr' (fun b hb => hne b (hfo b hb))
      · exact i.nfree
      · intro j hj
        by_cases e : j = h
        · subst e
          simp only [upd, if_true]
          exact hch
        · simp only [upd, if_neg e]
          exact (i.cown j hj).congr' (fun b hb => hne b (fun hb' => hoo b hb' j hj e hb))
      · intro j hj
        by_cases e : j = h
        · subst e; simp [upd, htl]
        · simp only [upd, if_neg e]; exact i.tail j hj
      · intro j hj
        by_cases e : j = h
        · subst e; simp [upd, hct]
        · simp only [upd, if_neg e]; exact i.count j hj
      · intro j hj b hb s hs'
        by_cases e : j = h
        · subst e
          simp only [upd, if_true, List.mem_append, List.mem_singleton] at hb
          rcases hb with hb | hb
          · obtain ⟨t, ht⟩ := mem_get ((i.cown j hj).mem b hb)
            obtain ⟨s'', hs2, hs3⟩ := hin b hb t ht
            dsimp only at hs'
            rw [hs2] at hs'; cases hs'
            rw [hs3]
            exact i.used j hj b hb t ht
          · subst hb
            dsimp only at hs'
            rw [hga'] at hs'; cases hs'
            have := i.size
            exact ⟨Int.le_refl _, by dsimp only; omega⟩
        · simp only [upd, if_neg e] at hb
          dsimp only at hs'
          rw [hne b (fun hb' => hoo b hb' j hj e hb)] at hs'
          exact i.used j hj b hb s hs'
      · intro b hb; simp at hb
      · exact i.size
    obtain ⟨hb1, hb2⟩ := bump_ok hi h hn a (by simp [upd]) ⟨0, none⟩ hga' size h0 (by dsimp only; omega)
    refine ⟨_, hb1, ⟨rfl, rfl, rfl⟩, rfl, ?_, hb2, ?_, ?_⟩
    · dsimp only
      rw [length_put, ← keys_length ps, hk, keys_length]
    · exact ⟨_, get_put_eq _ _ _ _ hga', by dsimp only; omega⟩
    · intro j hj b hb s hs'
      have hba : b ≠ a := fun e => hao j hj (e ▸ hb)
      dsimp only
      rw [get_put_ne _ _ _ _ hba]
      by_cases e : j = h
      · subst e; exact hin b hb s hs'
      · exact ⟨s, by rw [hne b (fun hb' => hoo b hb' j hj e hb)]; exact hs', rfl⟩
  unfold Heap.grow
  dsimp only
  cases hl : (heap h).list with
  | none =>
    have hnil : own h = [] := by
      have := i.cown h hn
      rw [hl] at this
      cases ho : own h with
      | nil => rfl
      | cons b l => rw [ho] at this; exact absurd this.1 (by simp)
    have hct := i.count h hn
    obtain ⟨m'', h1, h2⟩ := key m'.pages ⟨some a, some a, (heap h).count + 1⟩ rfl (fun _ _ => rfl)
      (fun b _ s hs' => ⟨s, hs', rfl⟩) (by rw [hnil]; exact ⟨rfl, _, hga, rfl⟩) rfl (by
        dsimp only; rw [hct]; omega)
    have h1' : Heap.bump m' a size = .ok (m'', .at a 0) := h1
    dsimp only
    rw [h1']
    exact ⟨_, m'', rfl, h2⟩
  | some p =>
    have hne : own h ≠ [] := by
      intro e
      have := i.cown h hn
      rw [hl, e] at this
      cases this
    obtain ⟨t, ht⟩ : ∃ t, (own h).getLast? = some t := by
      cases hx : (own h).getLast? with
      | none => exact absurd (List.getLast?_eq_none_iff.1 hx) hne
      | some t => exact ⟨t, rfl⟩
    have htl := i.tail h hn
    rw [ht] at htl
    obtain ⟨l', hl'⟩ := List.getLast?_eq_some_iff.1 ht
    have htm : t ∈ own h := by rw [hl']; simp
    obtain ⟨s, hs'⟩ := mem_get ((i.cown h hn).mem t htm)
    dsimp only
    rw [htl]
    dsimp only
    rw [hs']
    dsimp only
    have hct := i.count h hn
    have hca : Chain m'.pages (some a) [a] := ⟨rfl, _, hga, rfl⟩
    have hta : t ∉ [a] := by
      simp
      intro e; exact hao h hn (e ▸ htm)
    have hch : Chain (put m'.pages t { s with next := some a }) (heap h).list (own h ++ [a]) := by
      have := Chain.append (q := some a) (l2 := [a]) (by rw [← hl']; exact i.cown h hn) (by rw [← hl']; exact hon) hs' hca hta
      rw [← hl'] at this
      exact this
    obtain ⟨m'', h1, h2⟩ := key (put m'.pages t { s with next := some a }) { heap h with tail := some a, count := (heap h).count + 1 }
      (keys_put _ _ _) (fun b hb => get_put_ne _ _ _ _ (fun e => hb (e ▸ htm))) (by
        intro b hb s1 hs1
        by_cases e : b = t
        · subst e
          rw [hs'] at hs1; cases hs1
          exact ⟨_, get_put_eq _ _ _ _ hs', rfl⟩
        · exact ⟨s1, by rw [get_put_ne _ _ _ _ e]; exact hs1, rfl⟩) hch rfl (by dsimp only; rw [hct]; omega)
    rw [h1]
    exact ⟨_, m'', by rw [← hl]; rfl, h2⟩

/-- What heap_allocate does to the world. -/
def Out (n : Nat) (m : Mm) (heap : Nat → Heap) (own : Nat → List Nat) (h : Nat) (size : Int)
    (h' : Heap) (m' : Mm) (r : Heap.Ptr) (env : Option Nat) : Prop :=
  Keep m m' ∧ (Bd m → Bd m') ∧ ∃ free' own', Inv n m' (upd heap h h') [] free' own' ∧ Mono n m m' own own' ∧
    match r with
    | .at p off => size ≤ m.pageSize ∧ p ∈ own' h ∧ 0 ≤ off ∧ (∃ s, get m'.pages p = some s ∧ s.used = off + size) ∧
        (∀ j, j < n → p ∈ own j → ∃ s, get m.pages p = some s ∧ s.used = off) ∧
        m'.count - m'.pages.length = m.count - m.pages.length
    | .null => size > m.pageSize ∧ m' = m
    | .wait => size ≤ m.pageSize ∧ m'.count - m'.pages.length = m.count - m.pages.length
    | .throw => m'.pages.length = m.pages.length ∧ (m'.count = m.count ∨ m'.count = m.count + 1 ∧ env = none)

theorem upd_self {α : Type} (f : Nat → α) (i : Nat) : upd f i (f i) = f := by
  funext j; unfold upd; split
  · rename_i e; rw [e]
  · rfl

theorem Mono.same {m m' : Mm} (h : m'.pages = m.pages) : Mono n m m' own own :=
  ⟨fun _ _ _ hb => hb, fun _ _ b _ s hs => ⟨s, by rw [h]; exact hs, Int.le_refl _⟩⟩

theorem grow_out (i : Inv n m heap [] free own) (h : Nat) (hn : h < n) (size : Int) (h0 : 0 ≤ size) (hs : size ≤ m.pageSize)
    (m' : Mm) (r : Mm.Pop) (env : Option Nat) (hk : Keep m m') (hb : Bd m → Bd m')
    (hr : match r with
      | .page a => (∃ free', Inv n m' heap [a] free' own) ∧ (∀ h, h < n → a ∉ own h) ∧
          (∀ b, b ≠ a → get m'.pages b = get m.pages b) ∧ m'.count - m'.pages.length = m.count - m.pages.length ∧ m.count ≤ m'.count
      | .wait => Inv n m' heap [] free own ∧ m'.pages = m.pages ∧ m'.count = m.count
      | .throw => Inv n m' heap [] free own ∧ m'.pages = m.pages ∧ (m'.count = m.count ∨ m'.count = m.count + 1 ∧ env = none)) :
    ∃ h' m'' p, Heap.grow (heap h) size (m', r) = .ok (h', m'', p) ∧ Out n m heap own h size h' m'' p env := by
  cases r with
  | page a =>
    obtain ⟨⟨free', h1⟩, h2, h3, h4, h5⟩ := hr
    obtain ⟨h', m'', g1, g2, g3, g4, g5, g6, g7⟩ := grow_ok h1 h hn size h0 (by rw [hk.size]; exact hs)
    refine ⟨h', m'', .at a 0, g1, hk.trans g2, ?_, free', _, g5, ⟨?_, ?_⟩, hs, ?_, Int.le_refl _, ?_, ?_, ?_⟩
    · intro hb0 hl hw hp hc
      have := hb hb0 (by rw [← g2.limit]; exact hl) (by rw [← g2.wm]; exact hw) (by rw [← g2.size]; exact hp) (by rw [← g3]; exact hc)
      rw [g3, g2.size, g2.wm]; exact this
    · intro j hj b hb
      unfold upd
      split
      · rename_i e; subst e; simp [hb]
      · exact hb
    · intro j hj b hb s hs'
      have hba : b ≠ a := fun e => h2 j hj (e ▸ hb)
      obtain ⟨s', q1, q2⟩ := g7 j hj b hb s (by rw [h3 b hba]; exact hs')
      exact ⟨s', q1, by omega⟩
    · simp [upd]
    · obtain ⟨s, q1, q2⟩ := g6; exact ⟨s, q1, by omega⟩
    · intro j hj hm; exact absurd hm (h2 j hj)
    · rw [g3, g4]; exact h4
  | wait =>
    obtain ⟨h1, h2, h3⟩ := hr
    exact ⟨heap h, m', .wait, rfl, hk, hb, free, own, by rw [upd_self]; exact h1, Mono.same h2, hs, by rw [h2, h3]⟩
  | throw =>
    obtain ⟨h1, h2, h3⟩ := hr
    exact ⟨heap h, m', .throw, rfl, hk, hb, free, own, by rw [upd_self]; exact h1, Mono.same h2, by rw [h2], h3⟩

theorem allocate_ok (i : Inv n m heap [] free own) (hc : 0 ≤ m.count) (h : Nat) (hn : h < n) (size : Int) (h0 : 0 ≤ size)
    (env : Option Nat) (hfr : fresh m env = true) :
    ∃ h' m' p, (heap h).allocate m size env = .ok (h', m', p) ∧ Out n m heap own h size h' m' p env := by
  unfold Heap.allocate
  by_cases hs : size > m.pageSize
  · rw [if_pos hs]
    exact ⟨_, _, _, rfl, Keep.refl m, fun hb => hb, free, own, by rw [upd_self]; exact i, Mono.same rfl, hs, rfl⟩
  · rw [if_neg hs]
    obtain ⟨m', r, p1, p2, p3, p4⟩ := pop_ok i env hfr hc
    have hgr := grow_out i h hn size h0 (by omega) m' r env p2 p3 p4
    have hpop : (m.pop env).bind (Heap.grow (heap h) size) = Heap.grow (heap h) size (m', r) := by rw [p1]; rfl
    cases hl : (heap h).list with
    | none =>
      dsimp only
      rw [hpop]; exact hgr
    | some p =>
      have hne : own h ≠ [] := by
        intro e
        have := i.cown h hn
        rw [hl, e] at this
        cases this
      obtain ⟨t, ht⟩ : ∃ t, (own h).getLast? = some t := by
        cases hx : (own h).getLast? with
        | none => exact absurd (List.getLast?_eq_none_iff.1 hx) hne
        | some t => exact ⟨t, rfl⟩
      have htl := i.tail h hn
      rw [ht] at htl
      have htm : t ∈ own h := List.mem_of_getLast? ht
      obtain ⟨s, hs'⟩ := mem_get ((i.cown h hn).mem t htm)
      rw [htl]
      dsimp only
      rw [hs']
      dsimp only
      by_cases hfit : m.pageSize - s.used < size
      · rw [if_pos hfit, hpop]; exact hgr
      · rw [if_neg hfit]
        obtain ⟨b1, b2⟩ := bump_ok i h hn t htm s hs' size h0 (by omega)
        rw [b1]
        refine ⟨_, _, _, rfl, ⟨rfl, rfl, rfl⟩, fun hb => hb, free, own, by rw [upd_self]; exact b2, ⟨fun _ _ _ hb => hb, ?_⟩, by omega, htm, ?_, ?_, ?_, ?_⟩
        · intro j hj b hb s1 hs1
          by_cases e : b = t
          · subst e
            rw [hs'] at hs1; cases hs1
            exact ⟨_, get_put_eq _ _ _ _ hs', by dsimp only; omega⟩
          · exact ⟨s1, by dsimp only; rw [get_put_ne _ _ _ _ e]; exact hs1, Int.le_refl _⟩
        · exact (i.used h hn t htm s hs').1
        · exact ⟨_, get_put_eq _ _ _ _ hs', rfl⟩
        · intro j hj _; exact ⟨s, hs', rfl⟩
        · dsimp only; rw [length_put]

theorem resume_ok (i : Inv n m heap [] free own) (h : Nat) (hn : h < n) (size : Int) (h0 : 0 ≤ size) (hs : size ≤ m.pageSize)
    (hc : 0 ≤ m.count) :
    ∃ h' m' p, (heap h).resume m size = .ok (h', m', p) ∧ Out n m heap own h size h' m' p (some 0) := by
  unfold Heap.resume Mm.resume
  by_cases hf : m.freeList.isSome = true
  · rw [if_pos hf]
    obtain ⟨m', a, free', h1, h2, h3, h4, h5, h6, h7⟩ := pop_cache_ok i hf
    rw [h1]
    refine grow_out i h hn size h0 hs m' (.page a) (some 0) h5 ?_ ⟨⟨free', h2⟩, h6, h7, by rw [h3, h4], by omega⟩
    intro hb hl hw hp h0'
    have := hb (by rw [← h5.limit]; exact hl) (by rw [← h5.wm]; exact hw) (by rw [← h5.size]; exact hp) hc
    rw [h3, h5.size, h5.wm]; exact this
  · rw [if_neg hf]
    exact grow_out i h hn size h0 hs m .wait (some 0) (Keep.refl m) (fun hb => hb) ⟨i, rfl, rfl⟩

theorem filter_perm (l a b : List Nat) (hnd : l.Nodup) (hp : l.Perm (a ++ b)) :
    (l.filter (fun x => !a.contains x)).Perm b := by
  have h1 := hp.filter (fun x => !a.contains x)
  rw [List.filter_append] at h1
  have h2 : a.filter (fun x => !a.contains x) = [] := by
    rw [List.filter_eq_nil_iff]
    intro x hx
    simp [hx]
  have h3 : b.filter (fun x => !a.contains x) = b := by
    rw [List.filter_eq_self]
    intro x hx
    have hnd' := (hp.nodup_iff.1 hnd)
    rw [List.nodup_append] at hnd'
    simp
    intro hxa
    exact hnd'.2.2 x hxa x hx rfl
  rw [h2, h3] at h1
  exact h1

theorem bd_le {m' : Mm} (hk : Keep m m') (hs : 0 < m.pageSize) (hle : m'.count ≤ m.count) (hb : Bd m) : Bd m' := by
  intro hl hw hp h0
  have h1 := hb (by rw [← hk.limit]; exact hl) (by rw [← hk.wm]; exact hw) (by rw [← hk.size]; exact hp) (by omega)
  have h2 := Int.mul_le_mul_of_nonneg_right hle (Int.le_of_lt hs)
  rw [hk.size, hk.wm]
  omega

theorem trim_ok (i : Inv n m heap [] free own) : ∃ m', m.reset = .ok m' ∧ Keep m m' ∧ (Bd m → Bd m') ∧
    Inv n m' heap [] [] own ∧ m'.count - m'.pages.length = m.count - m.pages.length ∧
    ∀ j, j < n → ∀ b ∈ own j, get m'.pages b = get m.pages b := by
  obtain ⟨_, hfn, _, _, hfj⟩ := i.ofree
  have heq : m.reset = .ok { m with
      count := m.count - m.freeCount, freeList := none, freeCount := 0
      pages := m.pages.filter (fun x => !free.contains x.1) } := by
    unfold Mm.reset
    dsimp only
    rw [unmapChain_ok i.cfree hfn]
    rfl
  have hget : ∀ j, j < n → ∀ b ∈ own j, get (m.pages.filter (fun x => !free.contains x.1)) b = get m.pages b := by
    intro j hj b hb
    exact get_filter _ _ _ (fun hf => hfj b hf j hj hb)
  have hperm : (keys (m.pages.filter (fun x => !free.contains x.1))).Perm ((List.range n).flatMap own) := by
    rw [keys_filter]
    exact filter_perm _ _ _ i.nodup i.perm
  refine ⟨_, heq, ⟨rfl, rfl, rfl⟩, ?_, ?_, ?_, hget⟩
  · refine fun hb => bd_le (m := m) ⟨rfl, rfl, rfl⟩ i.size ?_ hb
    dsimp only
    rw [i.nfree]; omega
  · constructor
    · dsimp only; rw [keys_filter]; exact i.nodup.filter _
    · exact hperm
    · exact rfl
    · rfl
    · intro h hn; exact (i.cown h hn).congr' (hget h hn)
    · exact i.tail
    · exact i.count
    · intro h hn b hb s hs
      dsimp only at hs
      rw [hget h hn b hb] at hs
      exact i.used h hn b hb s hs
    · intro a ha; simp at ha
    · exact i.size
  · dsimp only
    have h1 := hperm.length_eq
    have h2 := i.perm.length_eq
    rw [keys_length] at h1 h2
    simp only [List.length_append, List.length_nil] at h2
    rw [i.nfree]
    omega

theorem reset_ok (i : Inv n m heap [] free own) (h : Nat) (hn : h < n) : ∃ m' free', (heap h).reset m = .ok (Heap.init, m') ∧ Keep m m' ∧ (Bd m → Bd m') ∧
    Inv n m' (upd heap h Heap.init) [] free' (upd own h []) ∧ m'.count - m'.pages.length = m.count - m.pages.length ∧
    ∀ j, j < n → j ≠ h → ∀ b ∈ own j, get m'.pages b = get m.pages b := by
  obtain ⟨_, hfn, hon, _, hfo, hoo, _, hfj⟩ := i.facts h hn
  have hct := i.count h hn
  have hsplit := split_perm own h n hn
  have hrest : (List.range n).flatMap (upd own h []) = rest own h n := rfl
  by_cases hz : own h = []
  · have hl : (heap h).list = none := by have := i.cown h hn; rw [hz] at this; exact this
    have heq : (heap h).reset m = .ok (Heap.init, m) := by
      unfold Heap.reset
      rw [if_neg (by rw [hct, hz]; simp)]
      rfl
    refine ⟨m, free, heq, Keep.refl m, fun hb => hb, ?_, rfl, fun _ _ _ _ _ => rfl⟩
    have he : upd own h [] = own := by rw [← hz]; exact upd_self own h
    rw [he]
    constructor
    · exact i.nodup
    · exact i.perm
    · exact i.cfree
    · exact i.nfree
    · intro j hj
      by_cases e : j = h
      · subst e; simp only [upd, if_true]; rw [hz]; rfl
      · simp only [upd, if_neg e]; exact i.cown j hj
    · intro j hj
      by_cases e : j = h
      · subst e; simp only [upd, if_true]; rw [hz]; rfl
      · simp only [upd, if_neg e]; exact i.tail j hj
    · intro j hj
      by_cases e : j = h
      · subst e; simp only [upd, if_true]; rw [hz]; rfl
      · simp only [upd, if_neg e]; exact i.count j hj
    · exact i.used
    · exact i.loose
    · exact i.size
  · obtain ⟨t, ht⟩ : ∃ t, (own h).getLast? = some t := by
      cases hx : (own h).getLast? with
      | none => exact absurd (List.getLast?_eq_none_iff.1 hx) hz
      | some t => exact ⟨t, rfl⟩
    have htl := i.tail h hn
    rw [ht] at htl
    obtain ⟨l', hl'⟩ := List.getLast?_eq_some_iff.1 ht
    have htm : t ∈ own h := by rw [hl']; simp
    obtain ⟨s, hs'⟩ := mem_get ((i.cown h hn).mem t htm)
    obtain ⟨p, hp⟩ : ∃ p, (heap h).list = some p := by
      have := i.cown h hn
      cases ho : own h with
      | nil => exact absurd ho hz
      | cons b l => rw [ho] at this; exact ⟨b, this.1⟩
    have hpos : (heap h).count > 0 := by
      rw [hct]
      have := List.length_pos_iff.2 hz
      omega
    have hch := i.cown h hn
    rw [hp] at hch
    unfold Heap.reset
    rw [if_pos hpos, hp, htl]
    dsimp only
    unfold Mm.push
    by_cases hcache : wrapU64 (m.freeCount * m.pageSize) < m.cache
    · rw [if_pos hcache, hs']
      have hget : ∀ b, b ≠ t → get (put m.pages t { s with next := m.freeList }) b = get m.pages b :=
        fun b hb => get_put_ne _ _ _ _ hb
      refine ⟨_, own h ++ free, rfl, ⟨rfl, rfl, rfl⟩, fun hb => hb, ?_, ?_, ?_⟩
      · constructor
        · dsimp only; rw [keys_put]; exact i.nodup
        · dsimp only; rw [keys_put, hrest]
          refine i.perm.trans ?_
          refine ((hsplit.append_left free).append_left []).trans ?_
          rw [List.nil_append, List.nil_append, ← List.append_assoc]
          exact List.perm_append_comm.append_right _
        · have := Chain.append (q := m.freeList) (l2 := free) (by rw [← hl']; exact hch) (by rw [← hl']; exact hon) hs' i.cfree
            (fun hf => hfo t hf htm)
          rw [← hl'] at this
          exact this
        · dsimp only; rw [hct, i.nfree, List.length_append]; omega
        · intro j hj
          by_cases e : j = h
          · subst e; simp only [upd, if_true]; rfl
          · simp only [upd, if_neg e]
            exact (i.cown j hj).congr' (fun b hb => hget b (fun e' => hoo t htm j hj e (e' ▸ hb)))
        · intro j hj
          by_cases e : j = h
          · subst e; simp only [upd, if_true]; rfl
          · simp only [upd, if_neg e]; exact i.tail j hj
        · intro j hj
          by_cases e : j = h
          · subst e; simp only [upd, if_true]; rfl
          · simp only [upd, if_neg e]; exact i.count j hj
        · intro j hj b hb s1 hs1
          by_cases e : j = h
          · subst e; simp [upd] at hb
          · simp only [upd, if_neg e] at hb
            dsimp only at hs1
            rw [hget b (fun e' => hoo t htm j hj e (e' ▸ hb))] at hs1
            exact i.used j hj b hb s1 hs1
        · intro a ha; simp at ha
        · exact i.size
      · dsimp only; rw [length_put]
      · intro j hj e b hb
        exact hget b (fun e' => hoo t htm j hj e (e' ▸ hb))
    · rw [if_neg hcache, unmapChain_ok hch hon]
      have hget : ∀ b, b ∉ own h → get (m.pages.filter (fun x => !(own h).contains x.1)) b = get m.pages b :=
        fun b hb => get_filter _ _ _ hb
      have hperm : (keys (m.pages.filter (fun x => !(own h).contains x.1))).Perm (free ++ rest own h n) := by
        rw [keys_filter]
        refine filter_perm _ _ _ i.nodup (i.perm.trans ?_)
        refine ((hsplit.append_left free).append_left []).trans ?_
        rw [List.nil_append, ← List.append_assoc, ← List.append_assoc]
        exact List.perm_append_comm.append_right _
      refine ⟨_, free, rfl, ⟨rfl, rfl, rfl⟩, ?_, ?_, ?_, ?_⟩
      · refine fun hb => bd_le (m := m) ⟨rfl, rfl, rfl⟩ i.size ?_ hb
        dsimp only
        omega
      · constructor
        · dsimp only; rw [keys_filter]; exact i.nodup.filter _
        · dsimp only; rw [hrest]; exact hperm
        · exact i.cfree.congr' (fun b hb => hget b (hfo b hb))
        · exact i.nfree
        · intro j hj
          by_cases e : j = h
          · subst e; simp only [upd, if_true]; rfl
          · simp only [upd, if_neg e]
            exact (i.cown j hj).congr' (fun b hb => hget b (fun hb' => hoo b hb' j hj e hb))
        · intro j hj
          by_cases e : j = h
          · subst e; simp only [upd, if_true]; rfl
          · simp only [upd, if_neg e]; exact i.tail j hj
        · intro j hj
          by_cases e : j = h
          · subst e; simp only [upd, if_true]; rfl
          · simp only [upd, if_neg e]; exact i.count j hj
        · intro j hj b hb s1 hs1
          by_cases e : j = h
          · subst e; simp [upd] at hb
          · simp only [upd, if_neg e] at hb
            dsimp only at hs1
            rw [hget b (fun hb' => hoo b hb' j hj e hb)] at hs1
            exact i.used j hj b hb s1 hs1
        · intro a ha; simp at ha
        · exact i.size
      · dsimp only
        have h1 := hperm.length_eq
        have h2 := i.perm.length_eq
        have h3 := hsplit.length_eq
        rw [keys_length] at h1 h2
        simp only [List.length_append, List.length_nil] at h1 h2 h3
        rw [hct]
        omega
      · intro j hj e b hb
        exact hget b (fun hb' => hoo b hb' j hj e hb)

end Mem
end Verif
