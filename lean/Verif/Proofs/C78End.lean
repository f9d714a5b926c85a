import Verif.Proofs.C78Engine

/-!
C78: the loops of the cursor end, and an application that reads on comes to the
end.
-/
namespace Verif.C78
open Verif.Scan

/-- Comes to a result. -/
def NS {α : Type} (P : St → Prop) (x : M α) : Prop := ∀ f s, P s → x f s ≠ .spin

theorem ns_bind {α β : Type} {P : St → Prop} {x : M α} {k : α → M β} {Q : α → St → Prop} {E : St → Prop}
    (ht : Tri P x Q E) (hx : NS P x) (hk : ∀ a, NS (Q a) (k a)) : NS P (x >>= k) := by
  intro f s hp
  have h1 := ht f s hp
  have h2 := hx f s hp
  show M.bind x k f s ≠ .spin
  unfold M.bind
  cases hx : x f s with
  | ok a s' => rw [hx] at h1; exact hk a f s' h1
  | throw s' => nofun
  | spin => exact absurd hx h2

/-- Always comes to a result. -/
def Tot {α : Type} (x : M α) : Prop := ∀ f s, x f s ≠ .spin

theorem tot_ns {α : Type} {P : St → Prop} {x : M α} (h : Tot x) : NS P x := fun f s _ => h f s

theorem tot_bind {α β : Type} {x : M α} {k : α → M β} (hx : Tot x) (hk : ∀ a, Tot (k a)) : Tot (x >>= k) := by
  intro f s
  show M.bind x k f s ≠ .spin
  unfold M.bind
  cases h : x f s with
  | ok a s' => exact hk a f s'
  | throw s' => nofun
  | spin => exact absurd h (hx f s)

theorem tot_pure {α : Type} {a : α} : Tot (pure a : M α) := fun _ _ => nofun
theorem tot_get : Tot get := fun _ _ => nofun
theorem tot_modify {g : Cur → Cur} : Tot (modify g) := fun _ _ => nofun
theorem tot_act {x : Act} : Tot (act x) := fun _ _ => nofun
theorem tot_fallible : Tot fallible := by
  intro f s
  unfold fallible
  split <;> nofun

theorem tot_attempt {α : Type} {x : M α} (h : Tot x) : Tot (attempt x) := by
  intro f s
  unfold attempt
  cases e : x f s with
  | ok a s' => nofun
  | throw s' => nofun
  | spin => exact absurd e (h f s)

theorem ns_attempt {α : Type} {P : St → Prop} {x : M α} (h : NS P x) : NS P (attempt x) := by
  intro f s hp
  unfold attempt
  cases e : x f s with
  | ok a s' => nofun
  | throw s' => nofun
  | spin => exact absurd e (h f s hp)

theorem tot_guarded {α : Type} {x : M α} {y : M Unit} (h : Tot x) (hy : Tot y) : Tot (guarded x y) := by
  intro f s
  unfold guarded
  cases e : x f s with
  | ok a s' =>
    cases e' : y f s' with
    | ok _ _ => simp only [e']; nofun
    | throw _ => simp only [e']; nofun
    | spin => exact absurd e' (hy f s')
  | throw s' =>
    cases e' : y f s' with
    | ok _ _ => simp only [e']; nofun
    | throw _ => simp only [e']; nofun
    | spin => exact absurd e' (hy f s')
  | spin => exact absurd e (h f s)

theorem tot_buf_reserve {m} : Tot (buf_reserve m) := by
  unfold buf_reserve
  refine tot_bind tot_fallible fun _ => tot_bind tot_get fun c => ?_
  split
  · exact tot_pure
  · exact tot_bind tot_act fun _ => tot_modify

theorem tot_buf_free {m} : Tot (buf_free m) := by
  unfold buf_free
  refine tot_bind tot_get fun c => ?_
  split
  · exact tot_act
  · exact tot_pure

theorem tot_reader_open {p} : Tot (reader_open p) := by
  unfold reader_open
  refine tot_bind tot_modify fun _ => tot_bind ?_ fun _ => ?_
  · split
    · refine tot_bind ?_ fun _ => tot_modify
      unfold compression_pop
      split
      · exact tot_bind tot_fallible fun _ => tot_bind tot_act fun _ => tot_pure
      · exact tot_pure
    · exact tot_pure
  · split
    · refine tot_bind ?_ fun _ => tot_modify
      unfold encryption_pop
      split
      · exact tot_bind tot_fallible fun _ => tot_bind tot_act fun _ => tot_pure
      · exact tot_pure
    · exact tot_pure

theorem tot_reader_reset : Tot reader_reset := by
  unfold reader_reset
  refine tot_bind tot_get fun c => tot_bind ?_ fun _ => ?_
  · split
    · exact tot_bind tot_act fun _ => tot_modify
    · exact tot_pure
  · split
    · exact tot_bind tot_act fun _ => tot_modify
    · exact tot_pure

theorem tot_reader_execute {r} : Tot (reader_execute r) := by
  unfold reader_execute
  refine tot_bind tot_buf_reserve fun _ => tot_bind tot_fallible fun _ => tot_bind tot_get fun c => tot_bind ?_ fun _ =>
    tot_bind ?_ fun _ => tot_bind tot_fallible fun _ => tot_pure
  · split
    · exact tot_bind tot_buf_reserve fun _ => tot_fallible
    · exact tot_pure
  · split
    · exact tot_bind tot_buf_reserve fun _ => tot_fallible
    · exact tot_pure

theorem tot_open_region {r key} : Tot (part_iterator_open_region r key) := by
  unfold part_iterator_open_region
  exact tot_bind tot_reader_execute fun _ => tot_modify

theorem tot_part_open {p key} : Tot (part_iterator_open p key) := by
  unfold part_iterator_open
  refine tot_bind tot_modify fun _ => tot_bind tot_get fun c => ?_
  split
  · exact tot_pure
  · exact tot_bind tot_reader_open fun _ => tot_open_region

theorem tot_next_regions : ∀ l, Tot (next_regions l) := by
  intro l
  induction l with
  | nil => exact tot_pure
  | cons y t ih =>
    unfold next_regions
    refine tot_bind tot_modify fun _ => ?_
    cases t with
    | nil => exact tot_pure
    | cons z u =>
      refine tot_bind tot_open_region fun _ => tot_bind tot_get fun c => ?_
      split
      · exact ih
      · exact tot_pure

theorem tot_part_next : Tot part_iterator_next := by
  unfold part_iterator_next
  refine tot_bind tot_get fun c => ?_
  split
  · exact tot_pure
  · refine tot_bind tot_modify fun _ => ?_
    split
    · exact tot_next_regions _
    · exact tot_pure

theorem tot_source_next {x} : Tot (source_next x) := by
  cases x
  · exact fun _ _ => nofun
  · exact fun _ _ => nofun
  · exact tot_part_next

theorem tot_merge_add {x} : Tot (merge_iterator_add x) := by
  unfold merge_iterator_add
  refine tot_bind tot_get fun c => tot_bind ?_ fun _ => tot_modify
  split
  · exact tot_pure
  · refine tot_bind tot_fallible fun _ => tot_bind ?_ fun _ => tot_modify
    split
    · exact tot_act
    · exact tot_pure

theorem tot_advance : ∀ n pos, Tot (advance n pos) := by
  intro n
  induction n with
  | zero => intro pos; exact tot_pure
  | succ n ih =>
    intro pos
    unfold advance
    refine tot_bind tot_get fun c => tot_bind ?_ fun _ => ih _
    split
    · exact tot_bind tot_source_next fun _ => tot_modify
    · exact tot_pure
    · exact tot_pure

theorem tot_merge_next : Tot merge_iterator_next := by
  unfold merge_iterator_next
  exact tot_bind tot_get fun c => tot_bind (tot_advance _ _) fun _ => tot_modify

theorem tot_part_cursor_open {i p key} : Tot (part_cursor_open i p key) := by
  unfold part_cursor_open
  refine tot_bind ?_ fun _ => tot_bind ?_ fun _ => tot_bind ?_ fun _ => tot_merge_next
  · split
    · exact tot_pure
    · refine tot_bind ?_ fun _ => tot_merge_add
      unfold open_a
      refine tot_bind tot_modify fun _ => ?_
      split
      · exact tot_pure
      · exact tot_bind tot_act fun _ => tot_modify
  · split
    · exact tot_pure
    · refine tot_bind ?_ fun _ => tot_merge_add
      exact tot_modify
  · split
    · exact tot_pure
    · exact tot_bind tot_part_open fun _ => tot_merge_add

theorem tot_part_cursor_close : Tot part_cursor_close := by
  unfold part_cursor_close close_a
  refine tot_bind ?_ fun _ => tot_bind tot_modify fun _ => tot_bind tot_reader_reset fun _ => tot_modify
  refine tot_bind tot_get fun c => tot_bind ?_ fun _ => tot_modify
  split
  · exact tot_act
  · exact tot_pure

theorem tot_unlock {i} : Tot (engine_unlock i) := by
  unfold engine_unlock
  exact tot_bind tot_act fun _ => tot_bind tot_act fun _ => tot_bind tot_act fun _ => tot_act

theorem tot_open_part {ps min key} : Tot (open_part ps min key) := by
  unfold open_part engine_lock
  refine tot_bind ?_ fun _ => tot_bind tot_modify fun _ => ?_
  · refine tot_bind tot_act fun _ => tot_bind tot_act fun _ => ?_
    split
    · exact tot_bind tot_act fun _ => tot_bind tot_act fun _ => tot_pure
    · exact tot_bind tot_act fun _ => tot_bind tot_act fun _ => tot_pure
  · split
    · exact tot_pure
    · exact tot_part_cursor_open

theorem tot_engine_next {ps} : Tot (engine_cursor_next ps) := by
  unfold engine_cursor_next
  refine tot_bind tot_get fun c => ?_
  split
  · exact tot_pure
  · refine tot_bind tot_merge_next fun _ => tot_bind tot_get fun c => ?_
    split
    · exact tot_pure
    · exact tot_bind tot_part_cursor_close fun _ => tot_bind tot_unlock fun _ => tot_bind tot_modify fun _ => tot_open_part

theorem tot_engine_open {ps key} : Tot (engine_cursor_open ps key) := by
  unfold engine_cursor_open
  refine tot_bind tot_modify fun _ => tot_bind tot_open_part fun _ => tot_bind tot_get fun c => ?_
  split
  · exact tot_engine_next
  · exact tot_pure
  · exact tot_pure

theorem tot_engine_close : Tot engine_cursor_close := by
  unfold engine_cursor_close engine_cursor_reset part_cursor_free reader_free
  refine tot_bind ?_ fun _ => ?_
  · refine tot_bind tot_part_cursor_close fun _ => tot_bind tot_get fun c => ?_
    split
    · exact tot_bind tot_unlock fun _ => tot_modify
    · exact tot_pure
  · refine tot_bind tot_reader_reset fun _ => tot_bind ?_ fun _ => tot_bind tot_get fun c => ?_
    · exact tot_bind tot_buf_free fun _ => tot_bind tot_buf_free fun _ => tot_buf_free
    · split
      · exact tot_pure
      · exact tot_act

/-! ### How long it takes -/

/-- All events. -/
def evs (ps : List Part) : List Ev := ps.flatMap fun p => p.a ++ p.b ++ stored p

/-- Events from `lo` on. -/
def ahead (ps : List Part) (lo : Nat) : Nat := ((evs ps).filter fun e => lo ≤ e.id).length

/-- Partitions after this one. -/
def after (ps : List Part) (p : Part) : Nat := (ps.filter fun q => p.max < q.max).length

theorem mem_evs {ps : List Part} {p : Part} {e : Ev} {s : Src} (hp : p ∈ ps) (h : e ∈ whole p s) : e ∈ evs ps := by
  refine List.mem_flatMap.2 ⟨p, hp, ?_⟩
  cases s with
  | a => exact List.mem_append_left _ (List.mem_append_left _ h)
  | b => exact List.mem_append_left _ (List.mem_append_right _ h)
  | file => exact List.mem_append_right _ h

theorem filter_lt {α : Type} {p q : α → Bool} {l : List α} (h : ∀ x ∈ l, p x = true → q x = true) {y : α} (hy : y ∈ l)
    (h1 : q y = true) (h2 : p y = false) : (l.filter p).length + 1 ≤ (l.filter q).length := by
  induction l with
  | nil => simp at hy
  | cons z t ih =>
    have hle : (t.filter p).length ≤ (t.filter q).length := by
      clear ih hy
      induction t with
      | nil => simp
      | cons w u ih =>
        have := ih fun x hx => h x (by simp at hx ⊢; rcases hx with e | hx <;> simp [*])
        have hw := h w (by simp)
        rw [List.filter_cons, List.filter_cons]
        by_cases hpw : p w = true
        · rw [if_pos hpw, if_pos (hw hpw)]; simpa using this
        · rw [if_neg hpw]
          split
          · simp; omega
          · exact this
    rw [List.filter_cons, List.filter_cons]
    rcases List.mem_cons.1 hy with e | hy
    · subst e
      rw [if_neg (by simp [h2]), if_pos h1]
      simpa using hle
    · have := ih (fun x hx => h x (by simp [hx])) hy
      have hz := h z (by simp)
      by_cases hpz : p z = true
      · rw [if_pos hpz, if_pos (hz hpz)]; simpa using this
      · rw [if_neg hpz]
        split
        · simp; omega
        · exact this

theorem ahead_lt {ps : List Part} {p : Part} {e : Ev} {lo} (hp : p ∈ ps) (h : Newest p e) (hl : lo ≤ e.id) :
    ahead ps (e.id + 1) + 1 ≤ ahead ps lo := by
  obtain ⟨s, hs⟩ := newest_whole h
  exact filter_lt (fun x _ hx => by simp at hx ⊢; omega) (mem_evs hp hs) (by simpa using hl) (by simp)

theorem after_lt {ps : List Part} {p q : Part} (hq : q ∈ ps) (h : p.max < q.max) : after ps q + 1 ≤ after ps p :=
  filter_lt (fun x _ hx => by simp at hx ⊢; omega) hq (by simpa using h) (by simp)

/-- How many turns are left. -/
def turns (ps : List Part) (lo : Nat) (c : Cur) : Nat :=
  match c.ref with
  | none => 1
  | some (_, p) =>
    match at_ c with
    | none => ahead ps lo + after ps p + 2
    | some e => ahead ps (e.id + 1) + after ps p + 2

theorem turns_moved {ps lo x c i p} (hp : Proper ps) (h : Sees ps lo x c) (hm : Moved (some (i, p)) c) :
    turns ps lo c ≤ ahead ps lo + after ps p + 1 := by
  unfold turns
  rcases hm with hr | ⟨hr, ha⟩ | ⟨j, q, hr, hq⟩
  · rw [hr]
    show 1 ≤ _
    omega
  · rw [hr]
    cases hat : at_ c with
    | none => exact absurd hat ha
    | some e =>
      obtain ⟨h1, h2, h3, _⟩ := sees_event hp h hr hat
      have := ahead_lt h3 h2 h1
      show ahead ps (e.id + 1) + after ps p + 2 ≤ _
      omega
  · rw [hr]
    have hq' : q ∈ ps := by unfold Sees at h; rw [hr] at h; exact h.1
    have := after_lt hq' hq
    cases hat : at_ c with
    | none =>
      show ahead ps lo + after ps q + 2 ≤ _
      omega
    | some e =>
      obtain ⟨h1, h2, h3, _⟩ := sees_event hp h hr hat
      have := ahead_lt h3 h2 h1
      show ahead ps (e.id + 1) + after ps q + 2 ≤ _
      omega

theorem skip_ends {ps x} (hp : Proper ps) : ∀ n lo, NS (fun s => Sees ps lo x s.cur ∧ turns ps lo s.cur ≤ n) (skip_deletes ps n) := by
  intro n
  induction n with
  | zero =>
    intro lo f s h
    have h1 := h.2
    unfold turns at h1
    split at h1
    · omega
    · split at h1 <;> omega
  | succ n ih =>
    intro lo
    unfold skip_deletes
    refine ns_bind (E := fun _ => True) tri_get (tot_ns tot_get) fun c => ?_
    intro f s h
    obtain ⟨⟨hs, ht⟩, hc⟩ := h
    subst hc
    cases hr : s.cur.ref with
    | none => exact tot_pure f s
    | some ip =>
      obtain ⟨i, p⟩ := ip
      unfold turns at ht
      rw [hr] at ht
      cases ha : at_ s.cur with
      | none =>
        rw [ha] at ht
        have ht : ahead ps lo + after ps p + 2 ≤ n + 1 := ht
        refine ns_bind (P := fun s => At ps lo x s.cur ∧ s.cur.ref = some (i, p)) (Q := fun _ s => Sees ps lo x s.cur ∧ turns ps lo s.cur ≤ n)
          (tri_weaken (r_engine_moves hp) (fun _ h => h) (fun _ s' h => ⟨h.1, ?_⟩) (fun _ h => h)) (tot_ns tot_engine_next)
          (fun _ => ih lo) f s ⟨sees_none hs hr ha, hr⟩
        have := turns_moved hp h.1 h.2
        omega
      | some e =>
        rw [ha] at ht
        have ht : ahead ps (e.id + 1) + after ps p + 2 ≤ n + 1 := ht
        obtain ⟨_, _, _, hat, _⟩ := sees_event hp hs hr ha
        show ((if e.del = true then _ else _) : M Unit) f s ≠ _
        by_cases hd : e.del = true
        · rw [if_pos hd]
          refine ns_bind (P := fun s => At ps (e.id + 1) x s.cur ∧ s.cur.ref = some (i, p))
            (Q := fun _ s => Sees ps (e.id + 1) x s.cur ∧ turns ps (e.id + 1) s.cur ≤ n)
            (tri_weaken (r_engine_moves hp) (fun _ h => h) (fun _ s' h => ⟨h.1, ?_⟩) (fun _ h => h)) (tot_ns tot_engine_next)
            (fun _ => ih (e.id + 1)) f s ⟨hat, hr⟩
          have := turns_moved hp h.1 h.2
          omega
        · rw [if_neg hd]
          exact tot_pure f s

/-- Enough turns for every loop. -/
def enough (ps : List Part) : Nat := (evs ps).length + ps.length + 2

theorem turns_le (ps : List Part) (lo : Nat) (c : Cur) : turns ps lo c ≤ enough ps := by
  have h1 : ∀ lo, ahead ps lo ≤ (evs ps).length := fun lo => List.length_filter_le _ _
  have h2 : ∀ p, after ps p ≤ ps.length := fun p => List.length_filter_le _ _
  unfold turns enough
  split
  · omega
  · rename_i p _
    have h2 := h2 p
    split
    · have := h1 lo; omega
    · rename_i e _
      have := h1 (e.id + 1); omega

theorem next_ends {ps fuel lo} (hp : Proper ps) (hf : enough ps ≤ fuel) :
    NS (fun s => At ps lo false s.cur) (monotone_next ps fuel) := by
  unfold monotone_next
  refine ns_bind (Q := fun _ _ => True) (E := fun _ => True) (fun f s _ => by split <;> trivial) (ns_attempt ?_) fun r => ?_
  · refine ns_bind (r_engine_next hp) (tot_ns tot_engine_next) fun _ =>
      ns_bind (Q := fun _ _ => True) (E := fun _ => True) (fun f s _ => by split <;> trivial) ?_ fun _ =>
      tot_ns (tot_bind tot_get fun _ => tot_pure)
    intro f s h
    exact skip_ends hp fuel lo f s ⟨h, Nat.le_trans (turns_le ps lo s.cur) hf⟩
  · rcases r with _ | _ | _ <;> exact tot_ns tot_pure

theorem calls_end {ps fuel} (hp : Proper ps) (hf : enough ps ≤ fuel) : ∀ xs lo,
    NS (fun s => At ps lo false s.cur) (calls ps fuel xs) := by
  intro xs
  induction xs with
  | nil => intro lo; exact tot_ns tot_pure
  | cons y xs ih =>
    intro lo
    unfold calls
    have hrest : ∀ r, NS (fun s => At ps lo false s.cur) (do let rs ← calls ps fuel xs; pure (r :: rs)) := by
      intro r
      exact ns_bind (Q := fun _ _ => True) (E := fun _ => True) (fun f s _ => by split <;> trivial) (ih lo) fun _ => tot_ns tot_pure
    cases y with
    | next =>
      refine ns_bind (Q := fun _ s => At ps lo false s.cur) (E := fun _ => False) ?_ ?_ hrest
      · refine tri_bind _ (r_next (lo := lo) (x := false) hp) fun r => tri_pure fun s h => ?_
        cases r with
        | one => exact inv_at (g := true) h.1
        | zero => exact inv_at (g := true) h.1
        | failed => exact h
      · exact ns_bind (Q := fun _ _ => True) (E := fun _ => True) (fun f s _ => by split <;> trivial) (next_ends hp hf) fun _ =>
          tot_ns tot_pure
    | read =>
      have hrd : Tot monotone_read := by
        unfold monotone_read
        refine tot_bind tot_get fun c => ?_
        split
        · split <;> exact tot_pure
        · exact tot_pure
      exact ns_bind (tri_bind _ t_read fun r => tri_pure fun s h => h) (tot_ns (tot_bind hrd fun _ => tot_pure)) hrest

theorem cursor_ends {ps fuel key} (hp : Proper ps) (hf : enough ps ≤ fuel) : Tot (monotone_cursor ps fuel key) := by
  unfold monotone_cursor
  refine tot_bind (tot_attempt tot_fallible) fun r => ?_
  cases r with
  | none => exact tot_pure
  | some u =>
    refine tot_bind tot_act fun _ => ?_
    intro f s
    refine ns_bind (P := fun _ => True) (Q := fun _ s => s.cur.list = [] ∧ s.cur.current = none) (E := fun _ => True)
      (tri_modify fun s _ => ⟨rfl, rfl⟩) (tot_ns tot_modify) (fun _ => ?_) f s trivial
    refine ns_bind (Q := fun _ _ => True) (E := fun _ => True) (fun f s _ => by split <;> trivial) (ns_attempt ?_) fun r => ?_
    · unfold cursor_body
      refine ns_bind (Q := fun _ s => Sees ps (low key) true s.cur) (E := fun _ => True) ?_ ?_ fun _ => ?_
      · cases key with
        | none => exact tri_weaken (r_engine_open hp) (fun _ h => h) (fun _ _ h => h) (fun _ _ => trivial)
        | some k =>
          refine tri_bind (fun _ s => s.cur.list = [] ∧ s.cur.current = none) (tri_fallible (fun _ h => h) (fun _ _ => trivial))
            fun _ => tri_bind (fun _ s => s.cur.list = [] ∧ s.cur.current = none) (tri_act fun _ h => h) fun _ => ?_
          exact tri_guarded (r_engine_open (key := some k) hp) (fun _ => tri_act fun _ h => h) (tri_act fun _ h => trivial)
      · cases key with
        | none => exact tot_ns tot_engine_open
        | some k => exact tot_ns (tot_bind tot_fallible fun _ => tot_bind tot_act fun _ => tot_guarded tot_engine_open tot_act)
      · intro f s h
        exact skip_ends hp fuel _ f s ⟨h, Nat.le_trans (turns_le ps _ s.cur) hf⟩
    · cases r with
      | some u => exact tot_ns tot_pure
      | none =>
        exact tot_ns (tot_bind (tot_attempt (tot_bind tot_engine_close fun _ => tot_act)) fun _ => tot_pure)

theorem session_ends {ps fuel key xs} (hp : Proper ps) (hf : enough ps ≤ fuel) (f : Nat → Bool) :
    ∃ r s, session ps fuel key xs f start = .ok r s := by
  have hns : Tot (session ps fuel key xs) := by
    unfold session using_
    refine tot_bind ?_ fun r => ?_
    · intro f s
      refine ns_bind (P := fun _ => True) (r_cursor hp) (tot_ns (cursor_ends hp hf)) (fun r => ?_) f s trivial
      cases r with
      | false => exact tot_ns tot_pure
      | true =>
        show NS _ (do let rs ← calls ps fuel xs; pure (some rs))
        refine ns_bind (Q := fun _ _ => True) (E := fun _ => True) (fun f s _ => by split <;> trivial) ?_ fun _ => tot_ns tot_pure
        intro f s h
        exact calls_end hp hf xs (low key) f s (inv_at (g := true) (final_less (h rfl)))
    · cases r with
      | none => exact tot_pure
      | some rs =>
        refine tot_bind ?_ fun _ => tot_pure
        unfold monotone_free
        exact tot_bind (tot_attempt tot_engine_close) fun _ => tot_act
  have ht := t_session (ps := ps) (fuel := fuel) (key := key) (xs := xs) f start rfl
  cases h : session ps fuel key xs f start with
  | ok r s => exact ⟨r, s, rfl⟩
  | throw s => rw [h] at ht; exact ht.elim
  | spin => exact absurd h (hns f start)

/-! ### Coming to the end -/

theorem r_count {ps fuel} (hp : Proper ps) : ∀ n lo g, Tri (fun s => At ps lo false s.cur) (calls ps fuel (thorough n))
    (fun rs _ => .next .failed ∉ rs → .next .zero ∉ rs → n ≤ (given g rs).length) (fun _ => False) := by
  intro n
  induction n with
  | zero => intro lo g; exact tri_pure fun s _ _ _ => Nat.zero_le _
  | succ n ih =>
    intro lo g
    show Tri _ (do let r ← call ps fuel .next; let rs ← (do let r ← call ps fuel .read; let rs ← calls ps fuel (thorough n); pure (r :: rs)); pure (r :: rs)) _ _
    have hany : ∀ P : St → Prop, Tri P (do let r ← call ps fuel .read; let rs ← calls ps fuel (thorough n); pure (r :: rs))
        (fun _ _ => True) (fun _ => False) := by
      intro P f s _
      exact (t_calls_any (ps := ps) (fuel := fuel) (.read :: thorough n)) f s trivial
    refine tri_bind (fun r s => match r with
        | .next .one => Final ps lo false s.cur ∧ s.cur.ref ≠ none
        | .next _ => True
        | .read _ => False) ?_ fun r => ?_
    · refine tri_bind _ (r_next (fuel := fuel) (lo := lo) (x := false) hp) fun r => tri_pure fun s h => ?_
      cases r with
      | one => exact h
      | zero => trivial
      | failed => trivial
    · cases r with
      | read _ => exact fun f s h => h.elim
      | next r =>
        cases r with
        | failed => exact tri_bind _ (hany _) fun rs => tri_pure fun s _ hf => absurd List.mem_cons_self hf
        | zero => exact tri_bind _ (hany _) fun rs => tri_pure fun s _ _ hz => absurd List.mem_cons_self hz
        | one =>
          refine tri_bind (fun rs _ => ∃ e rs', rs = .read (some e) :: rs' ∧
            (.next .failed ∉ rs' → .next .zero ∉ rs' → n ≤ (given false rs').length)) ?_ fun rs => tri_pure fun s h => ?_
          · refine tri_bind (fun r s => ∃ e, r = .read (some e) ∧ At ps (e.id + 1) false s.cur) ?_ fun r => ?_
            · refine tri_pre fun s0 h0 => ?_
              refine tri_bind (fun r s => ∃ e, r = some e ∧ At ps (e.id + 1) false s.cur) ?_ fun r => tri_pure fun s h => ?_
              · refine tri_weaken (r_read (c := s0.cur)) (fun s h => by rw [h]) (fun r s h => ?_) (fun _ h => h)
                obtain ⟨h0, hr⟩ := h0
                unfold Final at h0
                split at h0
                · rename_i hr'; exact absurd hr' hr
                · obtain ⟨e, g1, g2, g3, g4, g5⟩ := h0
                  rw [h.2, h.1, g1]
                  exact ⟨e, by simp [g3.2], g4⟩
              · obtain ⟨e, h1, h2⟩ := h
                exact ⟨e, by rw [h1], h2⟩
            · refine tri_pre fun s0 h0 => ?_
              obtain ⟨e, h1, h2⟩ := h0
              refine tri_bind _ (tri_weaken (ih (e.id + 1) false) (fun s h => by rw [h]; exact h2) (fun _ _ h => h)
                (fun _ h => h)) fun rs => tri_pure fun s h => ⟨e, rs, by rw [h1], h⟩
          · obtain ⟨e, rs', h1, h2⟩ := h
            subst h1
            intro hf hz
            have hg : given g (.next .one :: .read (some e) :: rs') = e :: given false rs' := by cases g <;> rfl
            rw [hg]
            have := h2 (fun h => hf (by simp [h])) (fun h => hz (by simp [h]))
            simp only [List.length_cons]
            omega

theorem given_short {ps : List Part} : ∀ {l : List Ev} {lo}, Ascending l → (∀ e ∈ l, lo ≤ e.id ∧ NL ps e) → l.length ≤ ahead ps lo := by
  intro l
  induction l with
  | nil => intro lo _ _; exact Nat.zero_le _
  | cons e t ih =>
    intro lo ha hl
    have ha := List.pairwise_cons.1 ha
    have h1 := ih (lo := e.id + 1) ha.2 fun e' he' => ⟨ha.1 e' he', (hl e' (by simp [he'])).2⟩
    obtain ⟨h2, ⟨p, hp, hn⟩, _⟩ := hl e (by simp)
    have := ahead_lt hp hn h2
    simp only [List.length_cons]
    omega

theorem r_using_end {ps fuel key n} (hp : Proper ps) (hn : (evs ps).length < n) :
    Tri (fun _ => True) (using_ ps fuel key (.read :: thorough n))
      (fun r _ => ∀ rs, r = some rs → .next .failed ∉ rs → .next .zero ∈ rs) (fun _ => False) := by
  have hcount : Tri (fun _ => True) (using_ ps fuel key (.read :: thorough n))
      (fun r _ => ∀ rs, r = some rs → .next .failed ∉ rs → .next .zero ∉ rs → n ≤ (given true rs).length) (fun _ => False) := by
    unfold using_
    refine tri_bind _ (r_cursor hp) fun r => ?_
    cases r with
    | false => exact tri_pure fun s _ rs e => by cases e
    | true =>
      refine tri_bind (fun rs _ => .next .failed ∉ rs → .next .zero ∉ rs → n ≤ (given true rs).length) ?_ fun rs =>
        tri_pure fun s h rs' e => by injection e with e; subst e; exact h
      unfold calls
      refine tri_bind (fun r s => (∃ e, r = .read e) ∧ ∃ lo, At ps lo false s.cur) ?_ fun r => ?_
      · refine tri_bind _ (tri_weaken (r_read_final (ps := ps) (lo := low key) (x := false))
          (fun s h => final_less (h rfl)) (fun _ _ h => h) (fun _ h => h)) fun r => tri_pure fun s h => ⟨⟨r, rfl⟩, ?_⟩
        cases r with
        | none => exact ⟨_, inv_at (g := true) h.2⟩
        | some e => exact ⟨_, h.2.2.1⟩
      · refine tri_pre fun s0 h0 => ?_
        obtain ⟨⟨e, he⟩, lo, h0⟩ := h0
        subst he
        refine tri_bind _ (tri_weaken (r_count hp n lo false) (fun s h => by rw [h]; exact h0) (fun _ _ h => h) (fun _ h => h))
          fun rs => tri_pure fun s h hf hz => ?_
        have := h (fun h => hf (by simp [h])) (fun h => hz (by simp [h]))
        cases e with
        | none => exact this
        | some e => exact Nat.le_trans this (Nat.le_succ _)
  intro f s hs
  have h1 := hcount f s hs
  have h2 := r_using (ps := ps) (fuel := fuel) (key := key) (xs := .read :: thorough n) hp f s hs
  cases hx : using_ ps fuel key (.read :: thorough n) f s with
  | spin => trivial
  | throw s' => rw [hx] at h1; exact h1
  | ok r s' =>
    rw [hx] at h1 h2
    intro rs hr hf
    apply Classical.byContradiction
    intro hz
    have h3 := h1 rs hr hf hz
    obtain ⟨h4, h5⟩ := h2 rs hr
    have h6 := given_short (ps := ps) (lo := 0) h5 fun e he => ⟨Nat.zero_le _, (h4 e he).1, (h4 e he).2.1⟩
    have h7 : ahead ps 0 ≤ (evs ps).length := List.length_filter_le _ _
    omega

end Verif.C78
