import Verif.Spec.C78

namespace Verif.C78
open Verif.Scan

/-! ### Triples -/

/-- From a state with `P`, a result comes with `Q`, an error with `E`. -/
def Tri {α : Type} (P : St → Prop) (x : M α) (Q : α → St → Prop) (E : St → Prop) : Prop :=
  ∀ f s, P s → match x f s with
    | .ok a s' => Q a s'
    | .throw s' => E s'
    | .spin => True

theorem tri_bind {α β : Type} {P E} {R : β → St → Prop} {x : M α} {k : α → M β} (Q : α → St → Prop)
    (hx : Tri P x Q E) (hk : ∀ a, Tri (Q a) (k a) R E) : Tri P (x >>= k) R E := by
  intro f s hp
  have h := hx f s hp
  change match M.bind x k f s with | .ok a s' => R a s' | .throw s' => E s' | .spin => True
  unfold M.bind
  cases e : x f s with
  | ok a s' => rw [e] at h; exact hk a f s' h
  | throw s' => rw [e] at h; exact h
  | spin => trivial

theorem tri_pure {α : Type} {P E} {Q : α → St → Prop} {a : α} (h : ∀ s, P s → Q a s) :
    Tri P (pure a : M α) Q E := fun _ s hp => h s hp

theorem tri_weaken {α : Type} {P P' : St → Prop} {Q Q' : α → St → Prop} {E E' : St → Prop} {x : M α}
    (h : Tri P x Q E) (hp : ∀ s, P' s → P s) (hq : ∀ a s, Q a s → Q' a s) (he : ∀ s, E s → E' s) :
    Tri P' x Q' E' := by
  intro f s p
  have := h f s (hp s p)
  cases e : x f s with
  | ok a s' => rw [e] at this; exact hq _ _ this
  | throw s' => rw [e] at this; exact he _ this
  | spin => trivial

theorem tri_get {P E} : Tri P get (fun c s => P s ∧ s.cur = c) E := fun _ _ hp => ⟨hp, rfl⟩

theorem tri_modify {P E} {Q : Unit → St → Prop} {g : Cur → Cur}
    (h : ∀ s, P s → Q () { s with cur := g s.cur }) : Tri P (modify g) Q E := fun _ s hp => h s hp

theorem tri_act {P E} {Q : Unit → St → Prop} {x : Act}
    (h : ∀ s, P s → Q () { s with tr := s.tr ++ [x] }) : Tri P (act x) Q E := fun _ s hp => h s hp

theorem tri_fallible {P E} {Q : Unit → St → Prop}
    (h : ∀ s, P s → Q () { s with tick := s.tick + 1 }) (he : ∀ s, P s → E { s with tick := s.tick + 1 }) :
    Tri P fallible Q E := by
  intro f s hp
  unfold fallible
  split
  · rename_i e; split at e
    · exact absurd e (by simp)
    · injection e with _ e; subst e; exact h s hp
  · rename_i e; split at e
    · injection e with e; subst e; exact he s hp
    · exact absurd e (by simp)
  · trivial

theorem tri_spin {α : Type} {P E} {Q : α → St → Prop} : Tri P (spin : M α) Q E := fun _ _ _ => trivial

theorem tri_attempt {α : Type} {P E} {Q : α → St → Prop} {x : M α} {E' : St → Prop} (h : Tri P x Q E) :
    Tri P (attempt x) (fun r s => match r with | some a => Q a s | none => E s) E' := by
  intro f s hp
  have := h f s hp
  unfold attempt
  cases e : x f s with
  | ok a s' => rw [e] at this; exact this
  | throw s' => rw [e] at this; exact this
  | spin => trivial

theorem tri_guarded {α : Type} {P E} {Q : α → St → Prop} {x : M α} {fin : M Unit} {Q' : α → St → Prop}
    {E' : St → Prop} (h : Tri P x Q E)
    (hok : ∀ a, Tri (Q a) fin (fun _ => Q' a) (fun _ => False)) (he : Tri E fin (fun _ => E') (fun _ => False)) :
    Tri P (guarded x fin) Q' E' := by
  intro f s hp
  have := h f s hp
  unfold guarded
  cases e : x f s with
  | ok a s' =>
    rw [e] at this
    have h2 := hok a f s' this
    dsimp only
    cases e2 : fin f s' with
    | ok _ s2 => rw [e2] at h2; exact h2
    | throw s2 => rw [e2] at h2; exact h2.elim
    | spin => trivial
  | throw s' =>
    rw [e] at this
    have h2 := he f s' this
    dsimp only
    cases e2 : fin f s' with
    | ok _ s2 => rw [e2] at h2; exact h2
    | throw s2 => rw [e2] at h2; exact h2.elim
    | spin => trivial
  | spin => trivial

theorem tri_pre {α : Type} {P E} {Q : α → St → Prop} {x : M α} (h : ∀ s, P s → Tri (fun s' => s' = s) x Q E) :
    Tri P x Q E := fun f s hp => h s hp f s rfl

/-! ### Histories -/

theorem held_append (t : Thing) (l m : List Act) : held t (l ++ m) = held t l + held t m := by
  induction l with
  | nil => simp [held]
  | cons x l ih => cases x <;> simp only [List.cons_append, held, ih] <;> omega

theorem held_take (t u : Thing) (l : List Act) :
    held t (l ++ [.take u]) = held t l + if u = t then 1 else 0 := by
  rw [held_append]; simp [held]

theorem held_give (t u : Thing) (l : List Act) :
    held t (l ++ [.give u]) = held t l - if u = t then 1 else 0 := by
  rw [held_append]; simp [held]; omega

theorem orderly_step {tr : List Act} {x : Act} (h : Orderly tr)
    (h1 : ∀ t, held t (tr ++ [x]) = 0 ∨ held t (tr ++ [x]) = 1)
    (h2 : ∀ i j, held (.access i) (tr ++ [x]) = 1 → held (.access j) (tr ++ [x]) = 1 → i = j) :
    Orderly (tr ++ [x]) := by
  intro n
  by_cases hn : n ≤ tr.length
  · have e : (tr ++ [x]).take n = tr.take n := by
      rw [List.take_append_of_le_length hn]
    rw [e]; exact h n
  · have e : (tr ++ [x]).take n = tr ++ [x] := List.take_of_length_le (by simp; omega)
    rw [e]; exact ⟨h1, h2⟩

/-! ### What a cursor holds -/

def own (c : Cur) : Thing → Nat
  | .control => if c.ref.isSome then 1 else 0
  | .mutex => 0
  | .access i => if c.ref.map Prod.fst = some i then 1 else 0
  | .table i => if c.a.link = some i then 1 else 0
  | .compression k => if c.file.compression = some k then 1 else 0
  | .encryption k => if c.file.encryption = some k then 1 else 0
  | .mem .handle => 0
  | .mem .key => 0
  | .mem .list => if c.cap = 0 then 0 else 1
  | .mem m => if m ∈ c.bufs then 1 else 0

/-- Held: what the cursor knows of, and `X`. -/
def Good (X : List Thing) (s : St) : Prop :=
  Orderly s.tr ∧ ∀ t, held t s.tr = (own s.cur t + X.count t : Nat)

theorem good_take {X s} {u : Thing} (h : Good X s) (h0 : own s.cur u + X.count u = 0)
    (ha : ∀ i, u = .access i → s.cur.ref = none ∧ ∀ j, X.count (.access j) = 0) :
    Good (u :: X) { s with tr := s.tr ++ [.take u] } := by
  obtain ⟨ho, hh⟩ := h
  have key : ∀ t, held t (s.tr ++ [.take u]) = (own s.cur t + (u :: X).count t : Nat) := by
    intro t
    rw [held_take, hh t, List.count_cons]
    by_cases e : u = t <;> simp [e] <;> omega
  have h01 : ∀ t, held t s.tr = 0 ∨ held t s.tr = 1 := by
    intro t
    have := (ho s.tr.length).1 t
    rwa [List.take_length] at this
  refine ⟨orderly_step ho ?_ ?_, key⟩
  · intro t
    rw [held_take]
    by_cases e : u = t
    · subst e
      have := hh u
      simp; omega
    · simp [e]; exact h01 t
  · intro i j hi hj
    rw [held_take] at hi hj
    by_cases ei : u = .access i
    · obtain ⟨hr, hx⟩ := ha i ei
      by_cases ej : u = .access j
      · rw [ei] at ej; injection ej
      · rw [if_neg ej, hh] at hj
        simp [own, hr, hx j] at hj
    · by_cases ej : u = .access j
      · obtain ⟨hr, hx⟩ := ha j ej
        rw [if_neg ei, hh] at hi
        simp [own, hr, hx i] at hi
      · rw [if_neg ei] at hi
        rw [if_neg ej] at hj
        have := (ho s.tr.length).2 i j
        rw [List.take_length] at this
        exact this (by omega) (by omega)

theorem good_give {X s} {u : Thing} (h : Good (u :: X) s) :
    Good X { s with tr := s.tr ++ [.give u] } := by
  obtain ⟨ho, hh⟩ := h
  have key : ∀ t, held t (s.tr ++ [.give u]) = (own s.cur t + X.count t : Nat) := by
    intro t
    rw [held_give, hh t, List.count_cons]
    by_cases e : u = t <;> simp [e] <;> omega
  have h01 : ∀ t, held t s.tr = 0 ∨ held t s.tr = 1 := by
    intro t
    have := (ho s.tr.length).1 t
    rwa [List.take_length] at this
  refine ⟨orderly_step ho ?_ ?_, key⟩
  · intro t
    rw [held_give]
    have := h01 t
    by_cases e : u = t
    · subst e
      have := hh u
      rw [List.count_cons_self] at this
      simp; omega
    · simp [e]; exact h01 t
  · intro i j hi hj
    rw [held_give] at hi hj
    have := (ho s.tr.length).2 i j
    rw [List.take_length] at this
    apply this
    · have := h01 (.access i); split at hi <;> omega
    · have := h01 (.access j); split at hj <;> omega

/-- What is held passes between the cursor and the rest. -/
theorem good_modify {X Y s} {d : Cur} (h : Good X s)
    (e : ∀ t, own d t + Y.count t = own s.cur t + X.count t) : Good Y ⟨s.tick, s.tr, d⟩ := by
  refine ⟨h.1, fun t => ?_⟩
  rw [h.2 t]
  exact congrArg _ (e t).symm

theorem good_tick {X s} (h : Good X s) : Good X { s with tick := s.tick + 1 } := h

theorem good_perm {X Y s} (h : Good X s) (e : ∀ t, X.count t = Y.count t) : Good Y s :=
  ⟨h.1, fun t => by rw [h.2 t, e t]⟩

theorem own_congr {c d : Cur} (h1 : d.ref = c.ref) (h2 : d.a.link = c.a.link)
    (h3 : d.file.compression = c.file.compression) (h4 : d.file.encryption = c.file.encryption)
    (h5 : d.cap = c.cap) (h6 : d.bufs = c.bufs) (t : Thing) : own d t = own c t := by
  cases t with
  | mem m => cases m <;> simp only [own, h5, h6]
  | _ => simp only [own, h1, h2, h3, h4]

/-- Only the handle and the key are held beside what the cursor knows of. -/
def Mine (X : List Thing) : Prop := ∀ t ∈ X, t = .mem .handle ∨ t = .mem .key

theorem mine_count {X : List Thing} (h : Mine X) {t : Thing} (h1 : t ≠ .mem .handle) (h2 : t ≠ .mem .key) :
    X.count t = 0 := by
  rw [List.count_eq_zero]
  intro hm
  rcases h t hm with e | e
  · exact h1 e
  · exact h2 e

/-- While the partition is `r`. -/
def Op (X : List Thing) (r : Option (Nat × Part)) (s : St) : Prop := Good X s ∧ s.cur.ref = r

/-- … and no context is held. -/
def OpR (X : List Thing) (r : Option (Nat × Part)) (s : St) : Prop :=
  Op X r s ∧ s.cur.file.compression = none ∧ s.cur.file.encryption = none

theorem op_modify {X r s} {d : Cur} (h : Op X r s) (h1 : d.ref = s.cur.ref)
    (h2 : d.a.link = s.cur.a.link)
    (h3 : d.file.compression = s.cur.file.compression)
    (h4 : d.file.encryption = s.cur.file.encryption)
    (h5 : d.cap = s.cur.cap) (h6 : d.bufs = s.cur.bufs) :
    Op X r ⟨s.tick, s.tr, d⟩ :=
  ⟨good_modify h.1 (fun t => by rw [own_congr h1 h2 h3 h4 h5 h6]), h1.trans h.2⟩

theorem t_fallible {P : St → Prop} (h : ∀ s, P s → P { s with tick := s.tick + 1 }) :
    Tri P fallible (fun _ => P) P := tri_fallible h h

theorem op_tick {X r} (s : St) (h : Op X r s) : Op X r { s with tick := s.tick + 1 } := h

/-- The buffers of the reader. -/
def Buffer (m : Mem) : Prop := m = .buf ∨ m = .decrypted ∨ m = .decompressed

theorem t_buf_reserve {X r} {m : Mem} (hX : Mine X) (hm : Buffer m) :
    Tri (Op X r) (buf_reserve m) (fun _ => Op X r) (Op X r) := by
  unfold buf_reserve
  refine tri_bind _ (t_fallible op_tick) fun _ => tri_bind _ tri_get fun c => ?_
  split
  · exact tri_pure fun s h => h.1
  · rename_i hn
    have h0 : X.count (.mem m) = 0 := mine_count hX (by rcases hm with e | e | e <;> simp [e])
      (by rcases hm with e | e | e <;> simp [e])
    have ho : ∀ c : Cur, own c (.mem m) = if m ∈ c.bufs then 1 else 0 := by
      intro c; rcases hm with e | e | e <;> subst e <;> rfl
    refine tri_bind (fun _ s => Good (.mem m :: X) s ∧ s.cur.ref = r ∧ m ∉ s.cur.bufs) ?_ fun _ => ?_
    · refine tri_act fun s h => ⟨good_take h.1.1 ?_ (fun i e => by cases e), h.1.2, ?_⟩
      · rw [ho, h.2, if_neg hn, h0]
      · change m ∉ s.cur.bufs
        rw [h.2]; exact hn
    · refine tri_modify fun s h => ⟨good_modify h.1 fun t => ?_, h.2.1⟩
      rw [List.count_cons]
      by_cases e : Thing.mem m = t
      · subst e
        rw [ho, ho]
        simp [h.2.2]; omega
      · have : own { s.cur with bufs := m :: s.cur.bufs } t = own s.cur t := by
          cases t with
          | mem k =>
            have hk : k ≠ m := fun e' => e (by rw [e'])
            cases k <;> simp_all [own]
          | _ => rfl
        rw [this]; simp [e]

theorem t_reader_execute {X r} {es : List Ev} (hX : Mine X) :
    Tri (Op X r) (reader_execute es) (fun _ => Op X r) (Op X r) := by
  unfold reader_execute
  refine tri_bind _ (t_buf_reserve hX (.inl rfl)) fun _ => tri_bind _ (t_fallible op_tick) fun _ =>
    tri_bind (fun _ => Op X r) (tri_weaken tri_get (fun _ h => h) (fun _ _ h => h.1) (fun _ h => h)) fun c => ?_
  refine tri_bind (fun _ => Op X r) ?_ fun _ => tri_bind (fun _ => Op X r) ?_ fun _ =>
    tri_bind _ (t_fallible op_tick) fun _ => tri_pure fun _ h => h
  · split
    · exact tri_bind _ (t_buf_reserve hX (.inr (.inl rfl))) fun _ => t_fallible op_tick
    · exact tri_pure fun _ h => h
  · split
    · exact tri_bind _ (t_buf_reserve hX (.inr (.inr rfl))) fun _ => t_fallible op_tick
    · exact tri_pure fun _ h => h

theorem t_reader_open {X r} {p : PFile} (hX : Mine X) :
    Tri (OpR X r) (reader_open p) (fun _ => Op X r) (Op X r) := by
  unfold reader_open
  refine tri_bind (fun _ => OpR X r) (tri_modify fun s h => ⟨op_modify h.1 rfl rfl rfl rfl rfl rfl, h.2⟩) fun _ => ?_
  refine tri_bind (fun _ s => Op X r s ∧ s.cur.file.encryption = none) ?_ fun _ => ?_
  · split
    · unfold compression_pop
      split
      · refine tri_bind (fun k s => ∃ k', k = some k' ∧ Good (.compression k' :: X) s ∧ s.cur.ref = r ∧
            s.cur.file.compression = none ∧ s.cur.file.encryption = none) ?_ fun k => ?_
        · refine tri_bind _ (tri_fallible (Q := fun _ => OpR X r) (fun _ h => h) (fun _ h => h.1)) fun _ => ?_
          refine tri_bind (fun _ s => Good (.compression p.compression :: X) s ∧ s.cur.ref = r ∧
            s.cur.file.compression = none ∧ s.cur.file.encryption = none) ?_ fun _ => tri_pure fun s h => ⟨_, rfl, h⟩
          refine tri_act fun s h => ⟨good_take h.1.1 ?_ (fun i e => by cases e), h.1.2, h.2⟩
          rw [mine_count hX (by simp) (by simp)]
          simp [own, h.2.1]
        · refine tri_modify fun s h => ?_
          obtain ⟨k', rfl, hg, hr, hc, he⟩ := h
          refine ⟨⟨good_modify hg fun t => ?_, hr⟩, he⟩
          rw [List.count_cons]
          by_cases e : Thing.compression k' = t
          · subst e; simp [own, hc]; omega
          · have : own { s.cur with file := { s.cur.file with compression := some k' } } t = own s.cur t := by
              cases t with
              | mem k => cases k <;> rfl
              | compression j =>
                have hj : k' ≠ j := fun e' => e (by rw [e'])
                simp [own, hc, hj]
              | _ => rfl
            rw [this]; simp [e]
      · refine tri_bind (fun k s => k = none ∧ OpR X r s) (tri_pure fun s h => ⟨rfl, h⟩) fun k =>
          tri_modify fun s h => ⟨op_modify h.2.1 rfl rfl ?_ rfl rfl rfl, h.2.2.2⟩
        rw [h.1, h.2.2.1]
    · exact tri_pure fun s h => ⟨h.1, h.2.2⟩
  · split
    · unfold encryption_pop
      split
      · refine tri_bind (fun k s => ∃ k', k = some k' ∧ Good (.encryption k' :: X) s ∧ s.cur.ref = r ∧
            s.cur.file.encryption = none) ?_ fun k => ?_
        · refine tri_bind _ (tri_fallible (Q := fun _ s => Op X r s ∧ s.cur.file.encryption = none)
            (fun _ h => h) (fun _ h => h.1)) fun _ => ?_
          refine tri_bind (fun _ s => Good (.encryption p.encryption :: X) s ∧ s.cur.ref = r ∧
            s.cur.file.encryption = none) ?_ fun _ => tri_pure fun s h => ⟨_, rfl, h⟩
          refine tri_act fun s h => ⟨good_take h.1.1 ?_ (fun i e => by cases e), h.1.2, h.2⟩
          rw [mine_count hX (by simp) (by simp)]
          simp [own, h.2]
        · refine tri_modify fun s h => ?_
          obtain ⟨k', rfl, hg, hr, he⟩ := h
          refine ⟨good_modify hg fun t => ?_, hr⟩
          rw [List.count_cons]
          by_cases e : Thing.encryption k' = t
          · subst e; simp [own, he]; omega
          · have : own { s.cur with file := { s.cur.file with encryption := some k' } } t = own s.cur t := by
              cases t with
              | mem k => cases k <;> rfl
              | encryption j =>
                have hj : k' ≠ j := fun e' => e (by rw [e'])
                simp [own, he, hj]
              | _ => rfl
            rw [this]; simp [e]
      · refine tri_bind (fun k s => k = none ∧ Op X r s ∧ s.cur.file.encryption = none)
          (tri_pure fun s h => ⟨rfl, h⟩) fun k =>
          tri_modify fun s h => op_modify h.2.1 rfl rfl rfl ?_ rfl rfl
        rw [h.1, h.2.2]
    · exact tri_pure fun s h => h.1

theorem t_open_region {X r} {es : List Ev} {key} (hX : Mine X) :
    Tri (Op X r) (part_iterator_open_region es key) (fun _ => Op X r) (Op X r) := by
  unfold part_iterator_open_region
  exact tri_bind _ (t_reader_execute hX) fun _ => tri_modify fun s h => op_modify h rfl rfl rfl rfl rfl rfl

theorem tri_get' {P E} : Tri P get (fun _ s => P s) E := fun _ _ hp => hp

theorem t_part_open {X r} {p : PFile} {key} (hX : Mine X) :
    Tri (OpR X r) (part_iterator_open p key) (fun _ => Op X r) (Op X r) := by
  unfold part_iterator_open
  refine tri_bind (fun _ => OpR X r) (tri_modify fun s h => ⟨op_modify h.1 rfl rfl rfl rfl rfl rfl, h.2⟩) fun _ => ?_
  refine tri_bind (fun _ => OpR X r) tri_get' fun c => ?_
  split
  · exact tri_pure fun _ h => h.1
  · exact tri_bind _ (t_reader_open hX) fun _ => t_open_region hX

theorem t_next_regions {X r} (hX : Mine X) :
    ∀ l, Tri (Op X r) (next_regions l) (fun _ => Op X r) (Op X r) := by
  intro l
  induction l with
  | nil => exact tri_pure fun _ h => h
  | cons x rest ih =>
    unfold next_regions
    refine tri_bind (fun _ => Op X r) (tri_modify fun s h => op_modify h rfl rfl rfl rfl rfl rfl) fun _ => ?_
    cases rest with
    | nil => exact tri_pure fun _ h => h
    | cons y rest =>
      refine tri_bind _ (t_open_region hX) fun _ => tri_bind (fun _ => Op X r) tri_get' fun c => ?_
      split
      · exact ih
      · exact tri_pure fun _ h => h

theorem t_part_next {X r} (hX : Mine X) :
    Tri (Op X r) part_iterator_next (fun _ => Op X r) (Op X r) := by
  unfold part_iterator_next
  refine tri_bind (fun _ => Op X r) tri_get' fun c => ?_
  split
  · exact tri_pure fun _ h => h
  · refine tri_bind (fun _ => Op X r) (tri_modify fun s h => op_modify h rfl rfl rfl rfl rfl rfl) fun _ => ?_
    split
    · exact t_next_regions hX _
    · exact tri_pure fun _ h => h

theorem t_source_next {X r} (hX : Mine X) :
    ∀ x, Tri (Op X r) (source_next x) (fun _ => Op X r) (Op X r) := by
  intro x
  cases x with
  | a =>
    unfold source_next
    exact tri_modify fun s h => op_modify h rfl rfl rfl rfl rfl rfl
  | b =>
    unfold source_next
    exact tri_modify fun s h => op_modify h rfl rfl rfl rfl rfl rfl
  | file => exact t_part_next hX

theorem t_advance {X r} (hX : Mine X) :
    ∀ n pos, Tri (Op X r) (advance n pos) (fun _ => Op X r) (Op X r) := by
  intro n
  induction n with
  | zero => intro pos; exact tri_pure fun _ h => h
  | succ n ih =>
    intro pos
    unfold advance
    refine tri_bind (fun _ => Op X r) tri_get' fun c => tri_bind (fun _ => Op X r) ?_ fun _ => ih _
    split
    · exact tri_bind _ (t_source_next hX _) fun _ => tri_modify fun s h => op_modify h rfl rfl rfl rfl rfl rfl
    · exact tri_pure fun _ h => h
    · exact tri_pure fun _ h => h

theorem t_merge_next {X r} (hX : Mine X) :
    Tri (Op X r) merge_iterator_next (fun _ => Op X r) (Op X r) := by
  unfold merge_iterator_next
  exact tri_bind (fun _ => Op X r) tri_get' fun c => tri_bind _ (t_advance hX _ _) fun _ =>
    tri_modify fun s h => op_modify h rfl rfl rfl rfl rfl rfl

/-- A part of the state that adding to the list leaves alone. -/
theorem t_merge_add {X r} {x : Src} (hX : Mine X) {φ : Cur → Prop}
    (hφ : ∀ c l k, φ c → φ { c with list := l, cap := k }) :
    Tri (fun s => Op X r s ∧ φ s.cur) (merge_iterator_add x) (fun _ s => Op X r s ∧ φ s.cur) (Op X r) := by
  unfold merge_iterator_add
  refine tri_bind _ tri_get fun c => tri_bind (fun _ s => Op X r s ∧ φ s.cur) ?_ fun _ =>
    tri_modify fun s h => ⟨op_modify h.1 rfl rfl rfl rfl rfl rfl, hφ _ _ _ h.2⟩
  split
  · exact tri_pure fun _ h => h.1
  · rename_i hc
    refine tri_bind (fun _ s => (Op X r s ∧ φ s.cur) ∧ s.cur = c)
      (tri_fallible (fun _ h => h) (fun _ h => h.1.1)) fun _ => ?_
    have hgrow : ∀ s : St, 0 < (if 2 * s.cur.cap < s.cur.list.length + 1 then s.cur.list.length + 1
        else 2 * s.cur.cap) := by intro s; split <;> omega
    by_cases h0 : c.cap = 0
    · rw [if_pos h0]
      refine tri_bind (fun _ s => (Good (.mem .list :: X) s ∧ s.cur.ref = r ∧ φ s.cur) ∧ s.cur.cap = 0) ?_ fun _ => ?_
      · refine tri_act fun s h => ⟨⟨good_take h.1.1.1 ?_ (fun i e => by cases e), h.1.1.2, h.1.2⟩, ?_⟩
        · rw [mine_count hX (by simp) (by simp)]
          simp [own, h.2, h0]
        · change s.cur.cap = 0
          rw [h.2]; exact h0
      · refine tri_modify fun s h => ⟨⟨good_modify h.1.1 fun t => ?_, h.1.2.1⟩, hφ _ _ _ h.1.2.2⟩
        rw [List.count_cons]
        have hg := hgrow s
        generalize (if 2 * s.cur.cap < s.cur.list.length + 1 then s.cur.list.length + 1
          else 2 * s.cur.cap) = k at hg ⊢
        by_cases e : Thing.mem .list = t
        · subst e
          simp [own, h.2]
          have : k ≠ 0 := by omega
          simp [this]; omega
        · have : own { s.cur with cap := k } t = own s.cur t := by
            cases t with
            | mem m =>
              cases m with
              | list => exact absurd rfl e
              | _ => rfl
            | _ => rfl
          rw [this]; simp [e]
    · rw [if_neg h0]
      refine tri_bind (fun _ s => (Op X r s ∧ φ s.cur) ∧ s.cur = c) (tri_pure fun _ h => h) fun _ => ?_
      refine tri_modify fun s h => ⟨⟨good_modify h.1.1.1 fun t => ?_, h.1.1.2⟩, hφ _ _ _ h.1.2⟩
      have hg := hgrow s
      generalize (if 2 * s.cur.cap < s.cur.list.length + 1 then s.cur.list.length + 1
          else 2 * s.cur.cap) = k at hg ⊢
      have : own { s.cur with cap := k } t = own s.cur t := by
        cases t with
        | mem m =>
          cases m with
          | list =>
            have h1 : s.cur.cap ≠ 0 := by rw [h.2]; exact h0
            have h2 : k ≠ 0 := by omega
            simp [own, h1, h2]
          | _ => rfl
        | _ => rfl
      rw [this]

/-- Nothing but memory and locks is held. -/
def Closed (c : Cur) : Prop := c.a.link = none ∧ c.file.compression = none ∧ c.file.encryption = none

theorem t_open_a {X r i l key} (hX : Mine X) :
    Tri (fun s => Op X r s ∧ Closed s.cur) (open_a i l key)
      (fun _ s => Op X r s ∧ s.cur.file.compression = none ∧ s.cur.file.encryption = none) (Op X r) := by
  unfold open_a
  refine tri_bind (fun _ s => Op X r s ∧ Closed s.cur)
    (tri_modify fun s h => ⟨op_modify h.1 rfl rfl rfl rfl rfl rfl, h.2⟩) fun _ => ?_
  split
  · exact tri_pure fun s h => ⟨h.1, h.2.2⟩
  · refine tri_bind (fun _ s => Good (.table i :: X) s ∧ s.cur.ref = r ∧ Closed s.cur) ?_ fun _ => ?_
    · refine tri_act fun s h => ⟨good_take h.1.1 ?_ (fun i e => by cases e), h.1.2, h.2⟩
      rw [mine_count hX (by simp) (by simp)]
      simp [own, h.2.1]
    · refine tri_modify fun s h => ⟨⟨good_modify h.1 fun t => ?_, h.2.1⟩, h.2.2.2⟩
      rw [List.count_cons]
      by_cases e : Thing.table i = t
      · subst e; simp [own, h.2.2.1]; omega
      · have : own { s.cur with a := { s.cur.a with link := some i } } t = own s.cur t := by
          cases t with
          | mem k => cases k <;> rfl
          | table j =>
            have hj : i ≠ j := fun e' => e (by rw [e'])
            simp [own, h.2.2.1, hj]
          | _ => rfl
        rw [this]; simp [e]

theorem t_part_cursor_open {X r i p key} (hX : Mine X) :
    Tri (fun s => Op X r s ∧ Closed s.cur) (part_cursor_open i p key) (fun _ => Op X r) (Op X r) := by
  unfold part_cursor_open
  refine tri_bind (fun _ => OpR X r) ?_ fun _ => tri_bind (fun _ => OpR X r) ?_ fun _ =>
    tri_bind (fun _ => Op X r) ?_ fun _ => t_merge_next hX
  · split
    · exact tri_pure fun s h => ⟨h.1, h.2.2⟩
    · exact tri_bind _ (t_open_a hX) fun _ => t_merge_add hX
        (φ := fun c => c.file.compression = none ∧ c.file.encryption = none) fun c l k h => h
  · split
    · exact tri_pure fun s h => h
    · refine tri_bind (fun _ => OpR X r) ?_ fun _ => t_merge_add hX
        (φ := fun c => c.file.compression = none ∧ c.file.encryption = none) fun c l k h => h
      exact tri_modify (Q := fun _ => OpR X r) fun s h => ⟨op_modify h.1 rfl rfl rfl rfl rfl rfl, h.2⟩
  · split
    · exact tri_pure fun s h => h.1
    · refine tri_bind _ (t_part_open hX) fun _ => ?_
      exact tri_weaken (t_merge_add (r := r) (x := .file) hX (φ := fun _ => True) fun _ _ _ h => h)
        (fun _ h => ⟨h, trivial⟩) (fun _ _ h => h.1) (fun _ h => h)

theorem t_close_a {X r} :
    Tri (Op X r) close_a (fun _ s => Op X r s ∧ s.cur.a.link = none) (fun _ => False) := by
  unfold close_a
  refine tri_bind _ tri_get fun c => ?_
  cases hl : c.a.link with
  | none =>
    refine tri_bind (fun _ s => Op X r s ∧ s.cur = c) (tri_pure fun _ h => h) fun _ => tri_modify fun s h => ?_
    exact ⟨op_modify h.1 rfl (by rw [h.2, hl]) rfl rfl rfl rfl, rfl⟩
  | some i =>
    refine tri_bind (fun _ s => (Orderly s.tr ∧ ∀ t, held t s.tr =
        (own { s.cur with a := ⟨[], none⟩ } t + X.count t : Nat)) ∧ s.cur.ref = r) ?_ fun _ =>
      tri_modify fun s h => ⟨h, rfl⟩
    refine tri_act fun s h => ?_
    have hg : Good (.table i :: X) ⟨s.tick, s.tr, { s.cur with a := ⟨[], none⟩ }⟩ := by
      refine good_modify h.1.1 fun t => ?_
      rw [List.count_cons]
      by_cases e : Thing.table i = t
      · subst e; simp [own, h.2, hl]; omega
      · have : own { s.cur with a := ⟨[], none⟩ } t = own s.cur t := by
          cases t with
          | mem k => cases k <;> rfl
          | table j =>
            have hj : i ≠ j := fun e' => e (by rw [e'])
            simp [own, h.2, hl, hj]
          | _ => rfl
        rw [this]; simp [e]
    exact ⟨good_give hg, h.1.2⟩

theorem t_reader_reset {X r} {φ : Cur → Prop}
    (hφ : ∀ c x, φ c → φ { c with file := x }) :
    Tri (fun s => Op X r s ∧ φ s.cur) reader_reset (fun _ s => OpR X r s ∧ φ s.cur) (fun _ => False) := by
  unfold reader_reset
  refine tri_bind _ tri_get fun c => ?_
  refine tri_bind (fun _ s => (Op X r s ∧ φ s.cur) ∧ s.cur.file.compression = none ∧
    s.cur.file.encryption = c.file.encryption) ?_ fun _ => ?_
  · cases hk : c.file.compression with
    | none => exact tri_pure fun s h => ⟨h.1, by rw [h.2]; exact hk, by rw [h.2]⟩
    | some k =>
      refine tri_bind (fun _ s => ((Orderly s.tr ∧ ∀ t, held t s.tr =
          (own { s.cur with file := { s.cur.file with compression := none } } t + X.count t : Nat)) ∧
          s.cur.ref = r ∧ φ s.cur) ∧ s.cur = c) ?_ fun _ =>
        tri_modify fun s h => ⟨⟨⟨h.1.1, h.1.2.1⟩, hφ _ _ h.1.2.2⟩, rfl, by
          show s.cur.file.encryption = _; rw [h.2]⟩
      refine tri_act fun s h => ?_
      have hg : Good (.compression k :: X)
          ⟨s.tick, s.tr, { s.cur with file := { s.cur.file with compression := none } }⟩ := by
        refine good_modify h.1.1.1 fun t => ?_
        rw [List.count_cons]
        by_cases e : Thing.compression k = t
        · subst e; simp [own, h.2, hk]; omega
        · have : own { s.cur with file := { s.cur.file with compression := none } } t = own s.cur t := by
            cases t with
            | mem k => cases k <;> rfl
            | compression j =>
              have hj : k ≠ j := fun e' => e (by rw [e'])
              simp [own, h.2, hk, hj]
            | _ => rfl
          rw [this]; simp [e]
      exact ⟨⟨good_give hg, h.1.1.2, h.1.2⟩, h.2⟩
  · cases hk : c.file.encryption with
    | none => exact tri_pure fun s h => ⟨⟨h.1.1, h.2.1, h.2.2⟩, h.1.2⟩
    | some k =>
      refine tri_bind (fun _ s => ((Orderly s.tr ∧ ∀ t, held t s.tr =
          (own { s.cur with file := { s.cur.file with encryption := none } } t + X.count t : Nat)) ∧
          s.cur.ref = r ∧ φ s.cur) ∧ s.cur.file.compression = none) ?_ fun _ =>
        tri_modify fun s h => ⟨⟨⟨h.1.1, h.1.2.1⟩, h.2, rfl⟩, hφ _ _ h.1.2.2⟩
      refine tri_act fun s h => ?_
      have hg : Good (.encryption k :: X)
          ⟨s.tick, s.tr, { s.cur with file := { s.cur.file with encryption := none } }⟩ := by
        refine good_modify h.1.1.1 fun t => ?_
        rw [List.count_cons]
        by_cases e : Thing.encryption k = t
        · subst e; simp [own, h.2.2, hk]; omega
        · have : own { s.cur with file := { s.cur.file with encryption := none } } t = own s.cur t := by
            cases t with
            | mem k => cases k <;> rfl
            | encryption j =>
              have hj : k ≠ j := fun e' => e (by rw [e'])
              simp [own, h.2.2, hk, hj]
            | _ => rfl
          rw [this]; simp [e]
      exact ⟨⟨good_give hg, h.1.1.2, h.1.2⟩, h.2.1⟩

theorem t_part_cursor_close {X r} :
    Tri (Op X r) part_cursor_close (fun _ s => Op X r s ∧ Closed s.cur) (fun _ => False) := by
  unfold part_cursor_close
  refine tri_bind _ t_close_a fun _ => ?_
  refine tri_bind (fun _ s => Op X r s ∧ s.cur.a.link = none)
    (tri_modify fun s h => ⟨op_modify h.1 rfl rfl rfl rfl rfl rfl, h.2⟩) fun _ => ?_
  refine tri_bind _ (t_reader_reset (φ := fun c => c.a.link = none) fun _ _ h => h) fun _ => ?_
  exact tri_modify fun s h => ⟨op_modify h.1.1 rfl rfl rfl rfl rfl rfl, h.2, h.1.2⟩

theorem own_none {c : Cur} (t : Thing) (i : Nat) (p : Part) (h : c.ref = some (i, p)) :
    own { c with ref := none } t + [Thing.control, .access i].count t = own c t := by
  cases t with
  | mem m => cases m <;> simp [own]
  | control => simp [own, h]
  | access j => by_cases e : i = j <;> simp [own, h, e]
  | _ => simp [own]

/-- engine_unlock with the partition still noted in the cursor, then forgotten. -/
theorem t_unlock {X i p} (hX : Mine X) :
    Tri (fun s => Op X (some (i, p)) s ∧ Closed s.cur)
      (do engine_unlock i; modify fun c => { c with ref := none })
      (fun _ s => Op X none s ∧ Closed s.cur) (fun _ => False) := by
  intro f s h
  have hg : Good (.control :: .access i :: X) ⟨s.tick, s.tr, { s.cur with ref := none }⟩ := by
    refine good_modify h.1.1 fun t => ?_
    rw [← own_none t i p h.1.2]
    simp only [List.count_cons, List.count_nil]; omega
  have h1 := good_take (u := .mutex) hg (by
    simp [own, mine_count hX]) (fun i e => by cases e)
  have h2 := good_give (u := .access i) (X := .mutex :: .control :: X) (good_perm h1 fun t => by
    simp only [List.count_cons]; omega)
  have h3 := good_give (u := .control) (X := .mutex :: X) (good_perm h2 fun t => by
    simp only [List.count_cons]; omega)
  have h4 := good_give h3
  exact ⟨⟨h4, rfl⟩, h.2⟩

/-- The state between calls. -/
def Idle (X : List Thing) (s : St) : Prop := Good X s ∧ (s.cur.ref = none → Closed s.cur)

theorem idle_of_op {X i p s} (h : Op X (some (i, p)) s) : Idle X s :=
  ⟨h.1, fun e => by rw [h.2] at e; cases e⟩

theorem t_open_part {X ps min key} (hX : Mine X) :
    Tri (fun s => Op X none s ∧ Closed s.cur) (open_part ps min key)
      (fun _ => Idle X) (Idle X) := by
  unfold open_part
  refine tri_bind (fun r s => (Good ((match r with
      | none => []
      | some (i, _) => [.control, .access i]) ++ X) s ∧ s.cur.ref = none) ∧ Closed s.cur) ?_ fun r => ?_
  · intro f s h
    have h1 := good_take (u := .control) h.1.1 (by simp [own, h.1.2, mine_count hX]) (fun i e => by cases e)
    have h2 := good_take (u := .mutex) h1 (by simp [own, mine_count hX]) (fun i e => by cases e)
    unfold engine_lock
    cases hq : gte ps 0 min with
    | none =>
      exact ⟨⟨good_give (good_give h2), h.1.2⟩, h.2⟩
    | some q =>
      obtain ⟨i, p⟩ := q
      have h3 := good_take (u := .access i) h2 (by
          simp [own, h.1.2, mine_count hX]) (fun j _ => ⟨h.1.2, fun j => by simp [mine_count hX]⟩)
      have h4 := good_give (u := .mutex) (X := .control :: .access i :: X) (good_perm h3 fun t => by
        simp only [List.count_cons]; omega)
      exact ⟨⟨h4, h.1.2⟩, h.2⟩
  · refine tri_bind (fun _ s => Op X r s ∧ Closed s.cur) ?_ fun _ => ?_
    · refine tri_modify fun s h => ⟨⟨?_, rfl⟩, h.2⟩
      refine good_modify h.1.1 fun t => ?_
      cases r with
      | none => rw [own_congr (d := { s.cur with ref := none }) (c := s.cur) h.1.2.symm rfl rfl rfl rfl rfl]; rfl
      | some q =>
        obtain ⟨i, p⟩ := q
        have := own_none (c := { s.cur with ref := some (i, p) }) t i p rfl
        rw [← this]
        simp only [List.cons_append, List.nil_append, List.count_cons, List.count_nil]
        rw [own_congr (d := { s.cur with ref := none }) (c := s.cur) h.1.2.symm rfl rfl rfl rfl rfl]
        omega
    · cases r with
      | none => exact tri_pure fun s h => ⟨h.1.1, fun _ => h.2⟩
      | some q =>
        obtain ⟨i, p⟩ := q
        refine tri_weaken (t_part_cursor_open (i := i) (p := p) (key := key) (r := some (i, p)) hX)
          (fun _ h => h) (fun _ s h => idle_of_op h) (fun _ h => idle_of_op h)

theorem t_engine_next {X ps} (hX : Mine X) :
    Tri (Idle X) (engine_cursor_next ps) (fun _ => Idle X) (Idle X) := by
  unfold engine_cursor_next
  refine tri_bind _ tri_get fun c => ?_
  cases hr : c.ref with
  | none => exact tri_pure fun s h => h.1
  | some q =>
    obtain ⟨i, p⟩ := q
    refine tri_bind (fun _ => Op X (some (i, p))) ?_ fun _ => tri_bind _ tri_get fun c2 => ?_
    · exact tri_weaken (t_merge_next (r := some (i, p)) hX) (fun s h => ⟨h.1.1, by rw [h.2]; exact hr⟩)
        (fun _ _ h => h) (fun _ h => idle_of_op h)
    · split
      · exact tri_pure fun s h => idle_of_op h.1
      · refine tri_bind (fun _ s => Op X (some (i, p)) s ∧ Closed s.cur) ?_ fun _ => ?_
        · exact tri_weaken (t_part_cursor_close (r := some (i, p))) (fun _ h => h.1) (fun _ _ h => h)
            (fun _ h => h.elim)
        · have hu : Tri (fun s => Op X (some (i, p)) s ∧ Closed s.cur)
              (do engine_unlock i; modify fun c => { c with ref := none })
              (fun _ s => Op X none s ∧ Closed s.cur) (Idle X) :=
            tri_weaken (t_unlock hX) (fun _ h => h) (fun _ _ h => h) (fun _ h => h.elim)
          have := tri_bind _ hu fun _ => t_open_part (ps := ps) (min := (p.max + 1) % 2 ^ 64) (key := none) hX
          intro f s h
          have h2 := this f s h
          exact h2

theorem t_engine_open {X ps key} (hX : Mine X) :
    Tri (fun s => Op X none s ∧ Closed s.cur) (engine_cursor_open ps key) (fun _ => Idle X) (Idle X) := by
  unfold engine_cursor_open
  refine tri_bind (fun _ s => Op X none s ∧ Closed s.cur) ?_ fun _ => ?_
  · refine tri_modify fun s h => ⟨⟨good_modify h.1.1 fun t => ?_, rfl⟩, h.2⟩
    rw [own_congr (d := { s.cur with ref := none }) (c := s.cur) h.1.2.symm rfl rfl rfl rfl rfl]
  · refine tri_bind _ (t_open_part hX) fun _ => tri_bind (fun _ => Idle X) tri_get' fun c => ?_
    split
    · exact t_engine_next hX
    · exact tri_pure fun _ h => h
    · exact tri_pure fun _ h => h

theorem t_skip {X ps} (hX : Mine X) : ∀ n, Tri (Idle X) (skip_deletes ps n) (fun _ => Idle X) (Idle X) := by
  intro n
  induction n with
  | zero => exact tri_spin
  | succ n ih =>
    unfold skip_deletes
    refine tri_bind (fun _ => Idle X) tri_get' fun c => ?_
    split
    · exact tri_pure fun _ h => h
    · split
      · split
        · exact tri_bind _ (t_engine_next hX) fun _ => ih
        · exact tri_pure fun _ h => h
      · exact tri_bind _ (t_engine_next hX) fun _ => ih

theorem mine_handle : Mine [.mem .handle] := by intro t h; simp at h; exact .inl h
theorem mine_key : Mine [.mem .key, .mem .handle] := by
  intro t h; simp at h; exact h.symm

theorem t_cursor_body {ps fuel key} :
    Tri (fun s => Op [.mem .handle] none s ∧ Closed s.cur) (cursor_body ps fuel key)
      (fun _ => Idle [.mem .handle]) (Idle [.mem .handle]) := by
  unfold cursor_body
  refine tri_bind (fun _ => Idle [.mem .handle]) ?_ fun _ => t_skip mine_handle _
  split
  · exact t_engine_open mine_handle
  · refine tri_bind (fun _ s => Op [.mem .handle] none s ∧ Closed s.cur)
      (tri_fallible (fun _ h => h) (fun s h => ⟨h.1.1, fun _ => h.2⟩)) fun _ => ?_
    refine tri_bind (fun _ s => Op [.mem .key, .mem .handle] none s ∧ Closed s.cur) ?_ fun _ => ?_
    · refine tri_act fun s h => ⟨⟨good_take h.1.1 ?_ (fun i e => by cases e), h.1.2⟩, h.2⟩
      simp [own]
    · refine tri_guarded (t_engine_open mine_key) (fun _ => ?_) ?_
      · exact tri_act fun s h => ⟨good_give h.1, h.2⟩
      · exact tri_act fun s h => ⟨good_give h.1, h.2⟩

/-! ### Closing -/

/-- The buffers that are freed do not leave the cursor: what is held is counted
without them. -/
def Less (X D : List Thing) (s : St) : Prop :=
  Orderly s.tr ∧ ∀ t, held t s.tr + (D.count t : Nat) = (own s.cur t + X.count t : Nat)

theorem less_give {X D s} {u : Thing} (h : Less X D s) (h1 : own s.cur u + X.count u = D.count u + 1) :
    Less X (u :: D) { s with tr := s.tr ++ [.give u] } := by
  obtain ⟨ho, hh⟩ := h
  have h01 : ∀ t, held t s.tr = 0 ∨ held t s.tr = 1 := by
    intro t
    have := (ho s.tr.length).1 t
    rwa [List.take_length] at this
  refine ⟨orderly_step ho ?_ ?_, ?_⟩
  · intro t
    rw [held_give]
    have := h01 t
    by_cases e : u = t
    · subst e
      have := hh u
      simp; omega
    · simp [e]; exact h01 t
  · intro i j hi hj
    rw [held_give] at hi hj
    have := (ho s.tr.length).2 i j
    rw [List.take_length] at this
    apply this
    · have := h01 (.access i); split at hi <;> omega
    · have := h01 (.access j); split at hj <;> omega
  · intro t
    change held t (s.tr ++ [.give u]) + _ = _
    rw [held_give, List.count_cons]
    have := hh t
    by_cases e : u = t
    · subst e; simp; omega
    · simp [e]; exact this

/-- One buffer of the reader, in its turn. -/
theorem t_buf_free {X D c} {m : Mem} (hm : Buffer m) (hX : Mine X) (hD : Thing.mem m ∉ D) :
    Tri (fun s => Less X D s ∧ s.cur = c) (buf_free m)
      (fun _ s => Less X ((if m ∈ c.bufs then [.mem m] else []) ++ D) s ∧ s.cur = c) (fun _ => False) := by
  have ho : own c (.mem m) = if m ∈ c.bufs then 1 else 0 := by
    rcases hm with e | e | e <;> subst e <;> rfl
  have h0 : X.count (.mem m) = 0 := mine_count hX (by rcases hm with e | e | e <;> simp [e])
    (by rcases hm with e | e | e <;> simp [e])
  intro f s h
  obtain ⟨h, rfl⟩ := h
  unfold buf_free
  by_cases hb : m ∈ s.cur.bufs
  · rw [if_pos hb] at ho ⊢
    have : Less X (.mem m :: D) { s with tr := s.tr ++ [.give (.mem m)] } := by
      refine less_give h ?_
      rw [ho, h0, List.count_eq_zero.2 hD]
    have e : (do
        let c ← get
        if m ∈ c.bufs then act (.give (.mem m)) else pure ()) f s =
        .ok () { s with tr := s.tr ++ [.give (.mem m)] } := by
      change (if m ∈ s.cur.bufs then act (.give (.mem m)) else pure ()) f s = _
      rw [if_pos hb]; rfl
    rw [e]
    exact ⟨this, rfl⟩
  · have e : (do
        let c ← get
        if m ∈ c.bufs then act (.give (.mem m)) else pure ()) f s = .ok () s := by
      change (if m ∈ s.cur.bufs then act (.give (.mem m)) else pure ()) f s = _
      rw [if_neg hb]; rfl
    rw [e, if_neg hb]
    exact ⟨h, rfl⟩

theorem t_reader_free {X c} (hX : Mine X) :
    Tri (fun s => Less X [] s ∧ s.cur = c) reader_free
      (fun _ s => Less X ((if .decompressed ∈ c.bufs then [.mem .decompressed] else []) ++
        ((if .decrypted ∈ c.bufs then [.mem .decrypted] else []) ++
        ((if .buf ∈ c.bufs then [.mem .buf] else []) ++ []))) s ∧ s.cur = c) (fun _ => False) := by
  unfold reader_free
  refine tri_bind _ (t_buf_free (.inl rfl) hX (by simp)) fun _ =>
    tri_bind _ (t_buf_free (.inr (.inl rfl)) hX ?_) fun _ => t_buf_free (.inr (.inr rfl)) hX ?_
  · split <;> simp
  · split <;> split <;> simp

/-- Everything the cursor knew of was given back. -/
def Freed (X : List Thing) (s : St) : Prop := Orderly s.tr ∧ ∀ t, held t s.tr = (X.count t : Nat)

theorem own_closed {c : Cur} (hr : c.ref = none) (hc : Closed c) (t : Thing) :
    own c t = (if c.cap = 0 then 0 else [Thing.mem .list].count t) +
      ((if Mem.decompressed ∈ c.bufs then [Thing.mem .decompressed] else []) ++
      ((if Mem.decrypted ∈ c.bufs then [Thing.mem .decrypted] else []) ++
      ((if Mem.buf ∈ c.bufs then [Thing.mem .buf] else []) ++ []))).count t := by
  obtain ⟨h1, h2, h3⟩ := hc
  by_cases k : c.cap = 0 <;> by_cases k1 : Mem.decompressed ∈ c.bufs <;> by_cases k2 : Mem.decrypted ∈ c.bufs <;>
    by_cases k3 : Mem.buf ∈ c.bufs <;> cases t with
    | mem m => cases m <;> simp [own, k, k1, k2, k3]
    | _ => simp [own, hr, h1, h2, h3, k, k1, k2, k3]

theorem t_part_cursor_free {X} (hX : Mine X) :
    Tri (fun s => Op X none s ∧ Closed s.cur) part_cursor_free (fun _ => Freed X) (fun _ => False) := by
  unfold part_cursor_free
  refine tri_bind (fun _ s => Op X none s ∧ Closed s.cur) ?_ fun _ => ?_
  · exact tri_weaken (t_reader_reset (X := X) (r := none) (φ := fun c => c.a.link = none) fun _ _ h => h)
      (fun _ h => ⟨h.1, h.2.1⟩) (fun _ _ h => ⟨h.1.1, h.2, h.1.2⟩) (fun _ h => h)
  · refine tri_pre fun s0 h0 => ?_
    refine tri_bind _ (tri_weaken (t_reader_free (c := s0.cur) hX) (fun s e => ?_) (fun _ _ h => h) (fun _ h => h))
      fun _ => ?_
    · rw [e]; exact ⟨⟨h0.1.1.1, fun t => by simp [h0.1.1.2 t]⟩, rfl⟩
    · refine tri_bind _ tri_get fun c => ?_
      have hl : X.count (.mem .list) = 0 := mine_count hX (by simp) (by simp)
      by_cases hc : c.cap = 0
      · rw [if_pos hc]
        refine tri_pure fun s h => ?_
        obtain ⟨⟨h, e⟩, rfl⟩ := h
        refine ⟨h.1, fun t => ?_⟩
        have := h.2 t
        rw [e] at this hc
        have hown := own_closed h0.1.2 h0.2 t
        rw [if_pos hc] at hown
        omega
      · rw [if_neg hc]
        refine tri_act fun s h => ?_
        obtain ⟨⟨h, e⟩, rfl⟩ := h
        have h2 := less_give (u := .mem .list) h (by
          rw [hl, List.count_eq_zero.2]
          · simp [own, hc]
          · split <;> split <;> split <;> simp)
        refine ⟨h2.1, fun t => ?_⟩
        have := h2.2 t
        rw [e] at hc
        simp only [e] at this
        have hown := own_closed h0.1.2 h0.2 t
        rw [if_neg hc] at hown
        rw [List.count_cons] at this
        simp only [List.count_cons, List.count_nil] at hown
        show held t (s.tr ++ _) = _
        omega

theorem t_engine_close {X} (hX : Mine X) :
    Tri (Good X) engine_cursor_close (fun _ => Freed X) (fun _ => False) := by
  unfold engine_cursor_close engine_cursor_reset
  refine tri_bind (fun _ s => Op X none s ∧ Closed s.cur) ?_ fun _ => t_part_cursor_free hX
  refine tri_pre fun s0 h0 => ?_
  refine tri_bind _ (tri_weaken (t_part_cursor_close (X := X) (r := s0.cur.ref)) (fun s e => by rw [e]; exact ⟨h0, rfl⟩)
    (fun _ _ h => h) (fun _ h => h)) fun _ => tri_bind _ tri_get fun c => ?_
  cases hr : c.ref with
  | none => exact tri_pure fun s h => ⟨⟨h.1.1.1, by rw [h.2]; exact hr⟩, h.1.2⟩
  | some q =>
    obtain ⟨i, p⟩ := q
    exact tri_weaken (t_unlock (p := p) hX) (fun s h => ⟨⟨h.1.1.1, by rw [h.2]; exact hr⟩, h.1.2⟩)
      (fun _ _ h => h) (fun _ h => h)

theorem t_cursor {ps fuel key} :
    Tri (fun s => s.tr = []) (monotone_cursor ps fuel key)
      (fun r s => if r then Idle [.mem .handle] s else Freed [] s) (fun _ => False) := by
  unfold monotone_cursor
  refine tri_bind _ (tri_attempt (Q := fun _ s => s.tr = []) (E := fun s => s.tr = [])
    (tri_fallible (fun _ h => h) (fun _ h => h))) fun r => ?_
  have hz : ∀ s : St, s.tr = [] → Orderly s.tr ∧ ∀ t, held t s.tr = 0 := by
    intro s h
    rw [h]
    refine ⟨fun n => ?_, fun t => rfl⟩
    simp [held]
  cases r with
  | none =>
    refine tri_pure fun s h => ?_
    exact ⟨(hz s h).1, fun t => by rw [(hz s h).2 t]; rfl⟩
  | some _ =>
    refine tri_bind (fun _ s => s.tr = [.take (.mem .handle)]) (tri_act fun s h => by
      show s.tr ++ _ = _; rw [h]; rfl) fun _ => ?_
    refine tri_bind (fun _ s => Op [.mem .handle] none s ∧ Closed s.cur) ?_ fun _ => ?_
    · refine tri_modify fun s h => ?_
      have h0 : Good [] ⟨0, [], fresh⟩ := by
        refine ⟨fun n => by simp [held], fun t => ?_⟩
        cases t with
        | mem m => cases m <;> simp [held, own, fresh]
        | _ => simp [held, own, fresh]
      have h1 := good_take (u := .mem .handle) h0 (by simp [own]) (fun i e => by cases e)
      refine ⟨⟨⟨?_, ?_⟩, rfl⟩, rfl, rfl, rfl⟩
      · rw [h]; exact h1.1
      · rw [h]; exact h1.2
    · refine tri_bind _ (tri_attempt t_cursor_body) fun r => ?_
      cases r with
      | some _ => exact tri_pure fun s h => by simpa using h
      | none =>
        refine tri_bind (fun _ => Freed []) ?_ fun _ => tri_pure fun s h => by simpa using h
        refine tri_weaken (tri_attempt (Q := fun _ => Freed []) (E := fun _ => False) (E' := fun _ => False)
          (tri_bind _ (t_engine_close mine_handle) fun _ => tri_act fun s h => ?_))
          (fun _ h => h.1) (fun a s h => ?_) (fun _ h => h)
        · refine ⟨orderly_step h.1 (fun t => ?_) (fun i j hi _ => ?_), fun t => ?_⟩
          · rw [held_give, h.2 t]
            by_cases e : Thing.mem .handle = t
            · subst e; simp
            · simp [e]
          · rw [held_give, h.2] at hi; simp at hi
          · show held t (s.tr ++ _) = _
            rw [held_give, h.2 t]
            by_cases e : Thing.mem .handle = t
            · subst e; simp
            · simp [e]
        · cases a with
          | none => exact h.elim
          | some _ => exact h

theorem t_free : Tri (Good [.mem .handle]) monotone_free (fun _ => Freed []) (fun _ => False) := by
  unfold monotone_free
  refine tri_bind (fun _ => Freed [.mem .handle]) ?_ fun _ => tri_act fun s h => ?_
  · refine tri_weaken (tri_attempt (E' := fun _ => False) (t_engine_close mine_handle)) (fun _ h => h) (fun a s h => ?_) (fun _ h => h)
    cases a with
    | none => exact h.elim
    | some _ => exact h
  · refine ⟨orderly_step h.1 (fun t => ?_) (fun i j hi _ => ?_), fun t => ?_⟩
    · rw [held_give, h.2 t]
      by_cases e : Thing.mem .handle = t
      · subst e; simp
      · simp [e]
    · rw [held_give, h.2] at hi; simp at hi
    · show held t (s.tr ++ _) = _
      rw [held_give, h.2 t]
      by_cases e : Thing.mem .handle = t
      · subst e; simp
      · simp [e]

theorem t_next {ps fuel} :
    Tri (Idle [.mem .handle]) (monotone_next ps fuel)
      (fun r s => Idle [.mem .handle] s ∧ (r = .zero → s.cur.ref = none)) (fun _ => False) := by
  unfold monotone_next
  refine tri_bind _ (tri_attempt (Q := fun b s => Idle [.mem .handle] s ∧ b = s.cur.ref.isSome) (E := Idle [.mem .handle]) ?_)
    fun r => ?_
  · refine tri_bind _ (t_engine_next mine_handle) fun _ => tri_bind _ (t_skip mine_handle _) fun _ =>
      tri_bind _ tri_get fun c => tri_pure fun s h => ⟨h.1, by rw [h.2]⟩
  · rcases r with _ | b
    · exact tri_pure fun s h => ⟨h, fun e => by cases e⟩
    · cases b
      · exact tri_pure fun s h => ⟨h.1, fun _ => by simpa using h.2.symm⟩
      · exact tri_pure fun s h => ⟨h.1, fun e => by cases e⟩

theorem t_read {P : St → Prop} : Tri P monotone_read (fun _ s => P s) (fun _ => False) := by
  unfold monotone_read
  refine tri_bind (fun _ => P) tri_get' fun c => ?_
  split
  · split
    · exact tri_pure fun _ h => h
    · exact tri_pure fun _ h => h
  · exact tri_pure fun _ h => h

theorem t_calls {ps fuel} : ∀ xs, Tri (Idle [.mem .handle]) (calls ps fuel xs)
    (fun rs s => Idle [.mem .handle] s ∧ (rs.getLast? = some (.next .zero) → s.cur.ref = none)) (fun _ => False) := by
  intro xs
  induction xs with
  | nil => exact tri_pure fun s h => ⟨h, fun e => by cases e⟩
  | cons x xs ih =>
    unfold calls
    refine tri_bind (fun r s => Idle [.mem .handle] s ∧ (r = .next .zero → s.cur.ref = none)) ?_ fun r => ?_
    · cases x with
      | next =>
        unfold call
        exact tri_bind _ t_next fun r => tri_pure fun s h => ⟨h.1, fun e => h.2 (by injection e)⟩
      | read =>
        unfold call
        exact tri_bind _ t_read fun r => tri_pure fun s h => ⟨h, fun e => by cases e⟩
    · cases xs with
      | nil =>
        refine tri_bind (fun rs s => rs = [] ∧ Idle [.mem .handle] s ∧ (r = .next .zero → s.cur.ref = none))
          (tri_pure fun s h => ⟨rfl, h⟩) fun rs => tri_pure fun s h => ?_
        obtain ⟨rfl, h1, h2⟩ := h
        exact ⟨h1, fun e => h2 (by simpa using e)⟩
      | cons y ys =>
        refine tri_bind (fun rs s => rs ≠ [] ∧ Idle [.mem .handle] s ∧
          (rs.getLast? = some (.next .zero) → s.cur.ref = none)) ?_ fun rs => tri_pure fun s h => ⟨h.2.1, fun e => ?_⟩
        · intro f s h
          have h1 := ih f s h.1
          have h2 : Tri (fun _ => True) (calls ps fuel (y :: ys)) (fun rs _ => rs ≠ []) (fun _ => True) := by
            unfold calls
            refine tri_bind (fun _ _ => True) ?_ fun _ => tri_bind (fun _ _ => True) ?_ fun _ =>
              tri_pure fun _ _ => by simp
            · intro f s _; split <;> trivial
            · intro f s _; split <;> trivial
          have h2 := h2 f s trivial
          cases e : calls ps fuel (y :: ys) f s with
          | ok rs s' => rw [e] at h1 h2; exact ⟨h2, h1⟩
          | throw s' => rw [e] at h1; exact h1
          | spin => trivial
        · apply h.2.2
          obtain ⟨z, zs, e'⟩ := List.exists_cons_of_ne_nil h.1
          rw [e'] at e ⊢
          simpa [List.getLast?_cons_cons] using e

theorem t_using {ps fuel key xs} : Tri (fun s => s.tr = []) (using_ ps fuel key xs)
    (fun r s => match r with
      | none => Freed [] s
      | some rs => Idle [.mem .handle] s ∧ (rs.getLast? = some (.next .zero) → s.cur.ref = none)) (fun _ => False) := by
  unfold using_
  refine tri_bind _ t_cursor fun b => ?_
  cases b with
  | false => exact tri_pure fun s h => by simpa using h
  | true =>
    refine tri_bind _ (tri_weaken (t_calls xs) (fun s h => by simpa using h) (fun _ _ h => h) (fun _ h => h))
      fun rs => tri_pure fun s h => h

theorem t_session {ps fuel key xs} : Tri (fun s => s.tr = []) (session ps fuel key xs)
    (fun _ => Freed []) (fun _ => False) := by
  unfold session
  refine tri_bind _ t_using fun r => ?_
  cases r with
  | none => exact tri_pure fun s h => h
  | some rs =>
    exact tri_bind _ (tri_weaken t_free (fun s h => h.1.1) (fun _ _ h => h) (fun _ h => h)) fun _ => tri_pure fun s h => h

end Verif.C78
