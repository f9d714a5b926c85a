import Verif.Proofs.Descr

/-! Every open descriptor is held, but for one for each operation that failed late (C93). -/
namespace Verif.C93
open Verif.Descr

variable {N N' : Slot → Prop} {k k' : Nat} {R : List (Nat × Part)} {n : Nat}

abbrev minus (s : Slot) (N : Slot → Prop) : Slot → Prop := fun t => t ≠ s ∧ N t
abbrev plus (s : Slot) (N : Slot → Prop) : Slot → Prop := fun t => t = s ∨ N t

theorem a_mono {w : World} (h : A N k R n w) (hN : ∀ s, N' s → N s) (hk : k ≤ k') : A N' k' R n w := by
  obtain ⟨L, hl, ha⟩ := h.acc
  exact ⟨h.sane, ⟨L, by omega, fun d hd => (ha d hd).imp id fun ⟨s, hs, hf⟩ => ⟨s, fun hh => hs (hN s hh), hf⟩⟩,
    h.refs, h.workers⟩

/-- What one holder has is given up. -/
theorem a_lose {w : World} (s : Slot) (h : A N k R n w) : A (plus s N) (k + 1) R n w := by
  obtain ⟨L, hl, ha⟩ := h.acc
  cases hs : w.files s with
  | none =>
    refine ⟨h.sane, ⟨L, by omega, fun d hd => (ha d hd).imp id fun ⟨t, ht, hf⟩ => ⟨t, ?_, hf⟩⟩, h.refs, h.workers⟩
    rintro (rfl | hh)
    · rw [hs] at hf; cases hf
    · exact ht hh
  | some e =>
    refine ⟨h.sane, ⟨e :: L, by simp only [List.length_cons]; omega, fun d hd => ?_⟩, h.refs, h.workers⟩
    by_cases hde : d = e
    · exact .inl (hde ▸ List.mem_cons_self)
    · rcases ha d hd with hL | ⟨t, ht, hf⟩
      · exact .inl (List.mem_cons_of_mem _ hL)
      · refine .inr ⟨t, ?_, hf⟩
        rintro (rfl | hh)
        · rw [hs] at hf; cases hf; exact hde rfl
        · exact ht hh

theorem t_check : Tri (A N k R n) check (A N k R n) (A N k R n) :=
  tri_check fun _ _ h => ⟨h.sane, h.acc, h.refs, h.workers⟩

theorem a_none {w : World} {s : Slot} (hs : N s) (h : A N k R n w) : A N k R n (put s none w) := by
  obtain ⟨L, hl, ha⟩ := h.acc
  refine ⟨sane_none s h.sane, ⟨L, hl, fun d hd => (ha d hd).imp id fun ⟨t, ht, hf⟩ => ⟨t, ht, ?_⟩⟩, h.refs, h.workers⟩
  show (if t = s then none else w.files t) = some d
  have hts : t ≠ s := fun e => ht (e ▸ hs)
  rw [if_neg hts, hf]

theorem t_init {s : Slot} {E : World → Prop} (hs : N s) : Tri (A N k R n) (fileInit s) (A N k R n) E :=
  tri_modify fun _ h => a_none hs h

theorem t_create {s : Slot} (hs : N s) : Tri (A N k R n) (fileCreate s) (A (minus s N) k R n) (A N k R n) := by
  intro w h
  rw [create_eq]
  split <;> rename_i h' <;> revert h' <;> split <;> intro h' <;> injections <;> subst_vars
  · obtain ⟨L, hl, ha⟩ := h.acc
    refine ⟨sane_new s (w := { w with io := w.io.tail }) h.sane, ⟨L, hl, fun d hd => ?_⟩, h.refs, h.workers⟩
    rcases List.mem_cons.1 hd with rfl | hd
    · exact .inr ⟨s, fun hh => hh.1 rfl, if_pos rfl⟩
    · refine (ha d hd).imp id fun ⟨t, ht, hf⟩ => ⟨t, fun hh => ht hh.2, ?_⟩
      show (if t = s then some w.next else w.files t) = some d
      have hts : t ≠ s := fun e => ht (e ▸ hs)
      rw [if_neg hts, hf]
  · exact a_none hs (w := { w with io := w.io.tail }) ⟨h.sane, h.acc, h.refs, h.workers⟩

theorem t_open {s : Slot} (hs : N s) : Tri (A N k R n) (fileOpen s) (A (minus s N) k R n) (A N k R n) :=
  tri_bind t_check (t_create hs)

theorem t_close {s : Slot} {E : World → Prop} : Tri (A N k R n) (fileClose s) (A (plus s N) k R n) E := by
  intro w h
  obtain ⟨L, hl, ha⟩ := h.acc
  rw [close_eq s w h.sane]
  cases hs : w.files s with
  | none =>
    refine ⟨h.sane, ⟨L, hl, fun d hd => (ha d hd).imp id fun ⟨t, ht, hf⟩ => ⟨t, ?_, hf⟩⟩, h.refs, h.workers⟩
    rintro (rfl | hh)
    · rw [hs] at hf; cases hf
    · exact ht hh
  | some e =>
    refine ⟨sane_close hs h.sane, ⟨L, hl, fun d hd => ?_⟩, h.refs, h.workers⟩
    have hd' : d ∈ w.fds.erase e := hd
    have hne : d ≠ e := fun he => by
      rw [he] at hd'
      exact ((List.Nodup.mem_erase_iff h.sane.1).1 hd').1 rfl
    refine (ha d (List.mem_of_mem_erase hd')).imp id fun ⟨t, ht, hf⟩ => ?_
    have hts : t ≠ s := fun he => by rw [he, hs] at hf; cases hf; exact hne rfl
    refine ⟨t, fun hh => hh.elim hts ht, ?_⟩
    show (if t = s then none else w.files t) = some d
    rw [if_neg hts, hf]

/-- Closing what nobody counts on. -/
theorem t_closeN {s : Slot} {E : World → Prop} : Tri (A N k R n) (fileClose s) (A N k R n) E :=
  tri_conseq t_close (fun _ h => h) (fun _ h => a_mono h (fun _ hs => .inr hs) (Nat.le_refl _)) fun _ h => h

/-- Closing what has been opened. -/
theorem t_close' {s : Slot} {E : World → Prop} : Tri (A (minus s N) k R n) (fileClose s) (A N k R n) E :=
  tri_conseq t_close (fun _ h => h) (fun _ h => a_mono h (fun t ht => by
    by_cases e : t = s
    · exact .inl e
    · exact .inr ⟨e, ht⟩) (Nat.le_refl _)) fun _ h => h

theorem minus_of {s : Slot} {w : World} (h : A N k R n w) : A (minus s N) k R n w :=
  a_mono h (fun _ hs => hs.2) (Nat.le_refl _)

theorem t_guarded {s : Slot} {m : M Unit}
    (h : Tri (A N k R n) m (A (minus s N) k R n) (A (minus s N) k R n)) :
    Tri (A N k R n) (guarded s m) (A N k R n) (A N k R n) :=
  tri_guarded h (fun _ => t_close') (fun _ => t_close')

theorem tri_choose {P Q E : World → Prop} {c : Bool} {a b : M Unit} (ha : c = true → Tri P a Q E)
    (hb : c = false → Tri P b Q E) : Tri P (choose c a b) Q E := by
  cases c
  · exact hb rfl
  · exact ha rfl

theorem tri_ite {P Q E : World → Prop} {c : Prop} [Decidable c] {a b : M Unit} (ha : c → Tri P a Q E)
    (hb : ¬ c → Tri P b Q E) : Tri P (if c then a else b) Q E := by
  by_cases hc : c
  · rw [if_pos hc]; exact ha hc
  · rw [if_neg hc]; exact hb hc

theorem errM {P Q : World → Prop} {s : Slot} {m : M Unit} (h : Tri P m Q (A N k R n)) :
    Tri P m Q (A (minus s N) k R n) := tri_conseq h (fun _ h => h) (fun _ h => h) fun _ h => minus_of h

theorem t_temporary {c : Bool} (ht : N .tmp) : Tri (A N k R n) (temporary c) (A N k R n) (A N k R n) :=
  tri_bind (t_init ht) (t_guarded (tri_bind (tri_choose (fun _ => errM (t_create ht)) (fun _ => errM (t_open ht))) t_check))

theorem t_copy (ht : N .tmp) : Tri (A N k R n) copy (A N k R n) (A N k R n) :=
  tri_bind t_check (tri_bind (t_temporary ht) (tri_bind t_check (t_temporary ht)))

theorem t_partOpen {s : Slot} (hs : N s) :
    Tri (A N k R n) (partOpen s) (A (minus s N) k R n) (A (minus s N) k R n) :=
  tri_bind (errM (t_open hs)) t_check

theorem t_partCreateCloud (ht : N .tmp) : Tri (A N k R n) partCreateCloud (A N k R n) (A N k R n) :=
  tri_bind (t_init ht) (t_guarded (tri_bind (errM (t_open ht)) (tri_bind t_check (tri_bind t_close'
    (tri_bind (t_init ht) (tri_bind (errM (t_create ht)) (tri_bind t_check t_closeN)))))))

/-- The holders that do not count: the local ones, partitions without a file, workers there are not. -/
def dead (R : List (Nat × Part)) (n : Nat) : Slot → Prop
  | .lock | .log | .wal => False
  | .part id => ∀ p, (id, p) ∈ R → p.id = false
  | .merged r => n ≤ r
  | _ => True

/-- The state between operations. -/
def Good (k : Nat) (w : World) : Prop :=
  A (dead w.refs w.workers) k w.refs w.workers w ∧ (w.refs.map (·.1)).Nodup

theorem good_of {w : World} (h : A (dead R n) k R n w) (hn : (R.map (·.1)).Nodup) : Good k w := by
  have h1 := h.refs
  have h2 := h.workers
  subst h1 h2
  exact ⟨h, hn⟩

theorem mem_unique {R : List (Nat × Part)} (hn : (R.map (·.1)).Nodup) {id : Nat} {p q : Part} (hp : (id, p) ∈ R)
    (hq : (id, q) ∈ R) : p = q := by
  induction R with
  | nil => cases hp
  | cons x R ih =>
    simp only [List.map_cons, List.nodup_cons] at hn
    rcases List.mem_cons.1 hp with rfl | hp'
    · rcases List.mem_cons.1 hq with h | hq'
      · injection h with _ h; exact h.symm
      · exact absurd (List.mem_map.2 ⟨_, hq', rfl⟩) hn.1
    · rcases List.mem_cons.1 hq with rfl | hq'
      · exact absurd (List.mem_map.2 ⟨_, hp', rfl⟩) hn.1
      · exact ih hn.2 hp' hq'

theorem find_mem {w : World} {id : Nat} {p : Part} (h : find id w = some p) : (id, p) ∈ w.refs := by
  unfold find at h
  cases hf : w.refs.find? (fun x => x.1 = id) with
  | none => rw [hf] at h; cases h
  | some x =>
    rw [hf] at h
    cases h
    have h1 := List.mem_of_find?_eq_some hf
    have h2 := List.find?_some hf
    have : x.1 = id := by simpa using h2
    rw [← this]
    exact h1

theorem find_none {w : World} {id : Nat} (h : find id w = none) (p : Part) : (id, p) ∉ w.refs := by
  intro hm
  unfold find at h
  have h1 : w.refs.find? (fun x => x.1 = id) = none := by
    cases hf : w.refs.find? (fun x => x.1 = id) with
    | none => rfl
    | some x => rw [hf] at h; cases h
  have := (List.find?_eq_none.1 h1) _ hm
  simp at this

/-- The references with `p` for `id`. -/
abbrev upd (id : Nat) (p : Part) (R : List (Nat × Part)) : List (Nat × Part) :=
  R.map fun x => if x.1 = id then (id, p) else x

theorem upd_ids (id : Nat) (p : Part) (R : List (Nat × Part)) : (upd id p R).map (·.1) = R.map (·.1) := by
  simp only [upd, List.map_map]
  apply List.map_congr_left
  intro x _
  simp only [Function.comp]
  split
  · rename_i h; exact h.symm
  · rfl

theorem upd_mem {id j : Nat} {p q : Part} {R : List (Nat × Part)} (h : (j, q) ∈ upd id p R) :
    (j = id ∧ q = p) ∨ (j ≠ id ∧ (j, q) ∈ R) := by
  obtain ⟨x, hx, he⟩ := List.mem_map.1 h
  by_cases hj : x.1 = id
  · rw [if_pos hj] at he
    cases he
    exact .inl ⟨rfl, rfl⟩
  · rw [if_neg hj] at he
    subst he
    exact .inr ⟨hj, hx⟩

theorem mem_upd {id : Nat} {p q : Part} {R : List (Nat × Part)} (h : (id, q) ∈ R) : (id, p) ∈ upd id p R :=
  List.mem_map.2 ⟨_, h, if_pos rfl⟩

theorem mem_upd_ne {id j : Nat} {p q : Part} {R : List (Nat × Part)} (h : (j, q) ∈ R) (hne : j ≠ id) :
    (j, q) ∈ upd id p R := List.mem_map.2 ⟨_, h, if_neg hne⟩

theorem a_refs {w w' : World} {R' : List (Nat × Part)} (h : A N k R n w) (h1 : w'.fds = w.fds) (h2 : w'.next = w.next)
    (h3 : w'.files = w.files) (h4 : w'.workers = w.workers) (h5 : w'.refs = R') : A N k R' n w' := by
  obtain ⟨L, hl, ha⟩ := h.acc
  refine ⟨?_, ⟨L, hl, by rw [h1, h3]; exact ha⟩, h5, h4.trans h.workers⟩
  unfold Sane
  rw [h1, h2, h3]
  exact h.sane

/-- `P` of an operation: from a good state to a good one; a failure may cost `c`. -/
abbrev Op1 (c : Nat) (m : M Unit) : Prop := ∀ k, Tri (Good k) m (Good k) (Good (k + c))

theorem op1_onPart {c id : Nat} {f : Part → M Unit}
    (h : ∀ k R n p, (R.map (·.1)).Nodup → (id, p) ∈ R → Tri (A (dead R n) k R n) (f p) (Good k) (Good (k + c))) :
    Op1 c (onPart id f) := by
  intro k w hw
  unfold onPart
  cases hf : find id w with
  | none => exact ⟨a_mono hw.1 (fun _ h => h) (by omega), hw.2⟩
  | some p => exact h k w.refs w.workers p hw.2 (find_mem hf) w hw.1

theorem t_pure {c : Nat} (hn : (R.map (·.1)).Nodup) : Tri (A (dead R n) k R n) (pure ()) (Good k) (Good (k + c)) :=
  fun _ h => good_of h hn

theorem errG {P Q : World → Prop} {c : Nat} {m : M Unit} (hn : (R.map (·.1)).Nodup)
    (h : Tri P m Q (A (dead R n) k R n)) : Tri P m Q (Good (k + c)) :=
  tri_conseq h (fun _ h => h) (fun _ h => h) fun _ h => good_of (a_mono h (fun _ h => h) (by omega)) hn

theorem t_setPart {id : Nat} {p : Part} {E : World → Prop} (hn : (R.map (·.1)).Nodup)
    (hN : ∀ s, dead (upd id p R) n s → N s) :
    Tri (A N k R n) (modify_ (setPart id p)) (Good k) E := by
  refine tri_modify fun w h => ?_
  refine good_of (R := upd id p R) (n := n) (a_mono (N := N) ?_ hN (Nat.le_refl _)) (by rw [upd_ids]; exact hn)
  exact a_refs h rfl rfl rfl rfl (by show upd id p w.refs = _; rw [h.refs])

theorem dead_keep {id : Nat} {p q : Part} (hm : (id, p) ∈ R) (he : q.id = p.id) (hn : (R.map (·.1)).Nodup) (s : Slot)
    (h : dead (upd id q R) n s) : dead R n s := by
  cases s with
  | part j =>
    intro p' hp'
    by_cases hj : j = id
    · subst hj
      have := mem_unique hn hp' hm
      subst this
      rw [← he]
      exact h _ (mem_upd hm)
    · exact h _ (mem_upd_ne hp' hj)
  | _ => exact h

theorem op1_create (id : Nat) : Op1 0 (create id) := by
  intro k w hw
  unfold create
  cases hf : find id w with
  | some p => exact hw
  | none =>
    have hnew := find_none hf
    have h1 : A (dead w.refs w.workers) k ((id, ⟨false, false⟩) :: w.refs) w.workers
        { w with refs := (id, ⟨false, false⟩) :: w.refs } := a_refs hw.1 rfl rfl rfl rfl rfl
    have h2 := a_none (s := .part id) (fun p hp => absurd hp (hnew p)) h1
    refine good_of (R := (id, ⟨false, false⟩) :: w.refs) (n := w.workers) (a_mono h2 ?_ (Nat.le_refl _)) ?_
    · intro s hs
      cases s with
      | part j => exact fun p hp => hs p (List.mem_cons_of_mem _ hp)
      | _ => exact hs
    · simp only [List.map_cons, List.nodup_cons]
      refine ⟨?_, hw.2⟩
      intro hm
      obtain ⟨⟨j, p⟩, hx, rfl⟩ := List.mem_map.1 hm
      exact hnew p hx

theorem op1_download (id : Nat) : Op1 1 (download id) := by
  refine op1_onPart fun k R n p hn hm => tri_ite (fun _ => t_pure hn) fun hc => ?_
  have hid : p.id = false := by
    cases hp : p.id with
    | true => exact absurd (.inl hp) hc
    | false => rfl
  have hd : dead R n (.part id) := fun q hq => by rw [mem_unique hn hq hm, hid]
  refine tri_bind (errG hn (t_copy trivial)) (tri_bind (tri_conseq (t_partOpen hd) (fun _ h => h) (fun _ h => h) ?_) ?_)
  · intro w h
    exact good_of (a_mono (a_lose (.part id) h) (fun t ht => by
      by_cases e : t = .part id
      · exact .inl e
      · exact .inr ⟨e, ht⟩) (Nat.le_refl _)) hn
  · refine t_setPart hn ?_
    intro s hs
    refine ⟨?_, ?_⟩
    · rintro rfl
      have := hs _ (mem_upd hm)
      cases this
    · cases s with
      | part j =>
        intro q hq
        by_cases hj : j = id
        · subst hj; rw [mem_unique hn hq hm, hid]
        · exact hs _ (mem_upd_ne hq hj)
      | _ => exact hs

theorem op1_upload (id : Nat) : Op1 0 (upload id) :=
  op1_onPart fun _ _ _ _ hn hm => tri_ite (fun _ => t_pure hn) fun _ => tri_ite (fun _ => errG hn tri_throw) fun _ =>
    tri_bind (errG hn t_check) (tri_bind (errG hn (t_partCreateCloud trivial)) (tri_bind (errG hn (t_copy trivial))
      (tri_bind (errG hn t_check) (t_setPart hn (dead_keep hm rfl hn)))))

theorem op1_dropCloud (id : Nat) : Op1 0 (dropCloud id) :=
  op1_onPart fun _ _ _ _ hn hm => tri_ite (fun _ =>
    tri_bind (errG hn t_check) (t_setPart hn (dead_keep hm rfl hn))) fun _ => t_pure hn

theorem op1_dropStorage (id : Nat) : Op1 0 (dropStorage id) := by
  refine op1_onPart fun _ R n p hn hm => tri_ite (fun _ => ?_) fun _ => t_pure hn
  refine tri_bind t_close (tri_bind (tri_conseq t_check (fun _ h => h) (fun _ h => h) ?_) (t_setPart hn ?_))
  · exact fun w h => good_of (a_mono h (fun _ h => .inr h) (Nat.le_refl _)) hn
  · intro s hs
    by_cases e : s = .part id
    · exact .inl e
    · refine .inr ?_
      cases s with
      | part j =>
        intro q hq
        exact hs _ (mem_upd_ne hq (fun hj => e (hj ▸ rfl)))
      | _ => exact hs

theorem op1_dropReference (id : Nat) : Op1 0 (dropReference id) := by
  refine op1_onPart fun k R n p hn hm => tri_ite (fun _ => t_pure hn) fun hc => ?_
  have hid : p.id = false := by
    cases hp : p.id with
    | true => exact absurd (.inl hp) hc
    | false => rfl
  have hn' : ((R.filter fun x => x.1 ≠ id).map (·.1)).Nodup := hn.sublist (List.filter_sublist.map _)
  refine tri_bind t_closeN (tri_bind (Q := A (dead (R.filter fun x => x.1 ≠ id) n) k (R.filter fun x => x.1 ≠ id) n)
    (tri_modify fun w h => ?_) ?_)
  · refine a_mono (a_refs (R' := R.filter fun x => x.1 ≠ id) h rfl rfl rfl rfl ?_) ?_ (Nat.le_refl _)
    · show w.refs.filter _ = _
      rw [h.refs]
    · intro s hs
      cases s with
      | part j =>
        intro q hq
        by_cases hj : j = id
        · subst hj; rw [mem_unique hn hq hm, hid]
        · exact hs q (List.mem_filter.2 ⟨hq, by simpa using hj⟩)
      | _ => exact hs
  · exact tri_conseq t_check (fun _ h => h) (fun _ h => good_of h hn') fun _ h => good_of h hn'

theorem t_reset {r : Nat} {E : World → Prop} (hs : N (.origin r)) :
    Tri (A N k R n) (refreshReset r) (A (plus (.merged r) N) k R n) E :=
  tri_bind (t_init hs) t_close

/-- What `a` and `b` have goes to `b` and `c`. -/
theorem a_move2 {w : World} {a b c : Slot} (hab : a ≠ b) (hac : a ≠ c) (hbc : b ≠ c) (hc : N c) (h : A N k R n w) :
    A (plus a (minus b (minus c N))) k R n (put a none (put b (w.files a) (put c (w.files b) w))) := by
  obtain ⟨L, hl, ha⟩ := h.acc
  refine ⟨sane_move2 hab hac hbc h.sane, ⟨L, hl, fun d hd => (ha d hd).imp id fun ⟨t, ht, hf⟩ => ?_⟩, h.refs, h.workers⟩
  simp only [put]
  by_cases h1 : t = a
  · subst h1
    exact ⟨b, fun hh => hh.elim (fun e => hab e.symm) (fun e => e.1 rfl), by rw [if_neg (Ne.symm hab), if_pos rfl, hf]⟩
  · by_cases h2 : t = b
    · subst h2
      exact ⟨c, fun hh => hh.elim (fun e => hac e.symm) (fun e => e.2.1 rfl),
        by rw [if_neg (Ne.symm hac), if_neg (Ne.symm hbc), if_pos rfl, hf]⟩
    · have h3 : t ≠ c := fun e => ht (e ▸ hc)
      exact ⟨t, fun hh => hh.elim h1 (fun e => ht e.2.2), by rw [if_neg h1, if_neg h2, if_neg h3, hf]⟩

theorem a_setPart {w : World} {id : Nat} {p : Part} (h : A N k R n w) : A N k (upd id p R) n (setPart id p w) :=
  a_refs h rfl rfl rfl rfl (by show upd id p w.refs = _; rw [h.refs])

/-- A refresh with the `Refresh` number `r`, whose file counts afterwards if `D` says so. -/
theorem t_refresh {r id : Nat} {D : Slot → Prop} (hD : ∀ s, D s → s ≠ .merged r) :
    Tri (fun w => ∃ R, A (fun s => D s ∧ dead R n s) k R n w ∧ (R.map (·.1)).Nodup ∧ D (.origin r) ∧ (∀ j, D (.part j)))
      (refresh r id)
      (fun w => ∃ R, A (fun s => D s ∧ dead R n s) k R n w ∧ (R.map (·.1)).Nodup)
      (fun w => ∃ R, A (fun s => D s ∧ dead R n s) (k + 1) R n w ∧ (R.map (·.1)).Nodup) := by
  rintro w ⟨R, hA, hn, ho, hp⟩
  revert w
  suffices h : Tri (A (fun s => D s ∧ dead R n s) k R n) (refresh r id)
      (fun w => ∃ R, A (fun s => D s ∧ dead R n s) k R n w ∧ (R.map (·.1)).Nodup)
      (fun w => ∃ R, A (fun s => D s ∧ dead R n s) (k + 1) R n w ∧ (R.map (·.1)).Nodup) from fun w hw => h w hw
  have early : ∀ w, A (plus (.merged r) fun s => D s ∧ dead R n s) k R n w →
      ∃ R, A (fun s => D s ∧ dead R n s) (k + 1) R n w ∧ (R.map (·.1)).Nodup := fun w h =>
    ⟨R, a_mono h (fun s hs => .inr hs) (by omega), hn⟩
  have early' : ∀ w, A (minus (.merged r) (plus (.merged r) fun s => D s ∧ dead R n s)) k R n w →
      ∃ R, A (fun s => D s ∧ dead R n s) (k + 1) R n w ∧ (R.map (·.1)).Nodup := fun w h =>
    ⟨R, a_mono h (fun s hs => ⟨hD s hs.1, .inr hs⟩) (by omega), hn⟩
  refine tri_bind (t_reset ⟨ho, trivial⟩) ?_
  intro w hw
  unfold onPart
  cases hf : find id w with
  | none => exact early w hw
  | some p =>
    have hm : (id, p) ∈ R := hw.refs ▸ find_mem hf
    revert w
    suffices h : Tri (A (plus (.merged r) fun s => D s ∧ dead R n s) k R n) _ _ _ from fun w hw _ => h w hw
    refine tri_ite (fun _ => fun w h => early w h) fun _ => ?_
    refine tri_bind (tri_conseq t_check (fun _ h => h) (fun _ h => h) early) ?_
    refine tri_bind (t_init (.inl rfl)) ?_
    refine tri_bind (tri_conseq (t_create (.inl rfl)) (fun _ h => h) (fun _ h => h) early) ?_
    refine tri_bind (tri_conseq t_check (fun _ h => h) (fun _ h => h) early') ?_
    refine tri_bind (tri_modify fun w h => a_move2 (c := .origin r) nofun nofun nofun ⟨nofun, .inr ⟨ho, trivial⟩⟩ h) ?_
    refine tri_bind (tri_modify fun w h => a_setPart (p := { p with id := true }) h) ?_
    have hn' : ((upd id { p with id := true } R).map (·.1)).Nodup := by rw [upd_ids]; exact hn
    have hdead : ∀ s, D s ∧ dead (upd id { p with id := true } R) n s → s ≠ .origin r →
        plus (.merged r) (minus (.part id) (minus (.origin r) (minus (.merged r)
          (plus (.merged r) fun s => D s ∧ dead R n s)))) s := by
      rintro s ⟨hs, hd⟩ hor
      refine .inr ⟨?_, hor, hD s hs, .inr ⟨hs, ?_⟩⟩
      · rintro rfl
        have := hd _ (mem_upd hm)
        cases this
      · cases s with
        | part j =>
          intro q hq
          by_cases hj : j = id
          · subst hj
            have := hd _ (mem_upd hm)
            cases this
          · exact hd _ (mem_upd_ne hq hj)
        | _ => exact hd
    refine tri_bind (tri_conseq t_check (fun _ h => h) (fun _ h => h) ?_) ?_
    · intro w h
      refine ⟨_, a_mono (a_lose (.origin r) h) ?_ (Nat.le_refl _), hn'⟩
      intro s hs
      by_cases e : s = .origin r
      · exact .inl e
      · exact .inr (hdead s hs e)
    · have after : ∀ s, D s ∧ dead (upd id { p with id := true } R) n s →
          plus (.origin r) (plus (.merged r) (minus (.part id) (minus (.origin r) (minus (.merged r)
          (plus (.merged r) fun s => D s ∧ dead R n s))))) s := by
        intro s hs
        by_cases e : s = .origin r
        · exact .inl e
        · exact .inr (hdead s hs e)
      refine tri_bind t_close ?_
      refine tri_bind (tri_conseq t_check (fun _ h => h) (fun _ h => h) ?_) ?_
      · exact fun w h => ⟨_, a_mono h after (by omega), hn'⟩
      · refine tri_bind (t_init (.inl rfl)) (tri_conseq t_check (fun _ h => h) ?_ ?_)
        · exact fun w h => ⟨_, a_mono h after (Nat.le_refl _), hn'⟩
        · exact fun w h => ⟨_, a_mono h after (by omega), hn'⟩

theorem op1_refresh (r id : Nat) : Op1 1 (run (.refresh r id)) := by
  intro k w hw
  show match (if r < w.workers then refresh r id w else .err w) with
    | .ok _ w' => Good k w'
    | .err w' => Good (k + 1) w'
    | .bad => False
  by_cases hr : r < w.workers
  · rw [if_pos hr]
    have back : ∀ {R n k} w', r < n → A (fun s => s ≠ .merged r ∧ dead R n s) k R n w' → A (dead R n) k R n w' :=
      fun w' hr h => a_mono h (fun s hs => ⟨by rintro rfl; exact absurd hs (Nat.not_le.2 hr), hs⟩) (Nat.le_refl _)
    have := tri_conseq (t_refresh (r := r) (id := id) (n := w.workers) (k := k) (D := fun s => s ≠ .merged r) fun _ h => h)
      (fun _ h => h) (Q' := Good k) (E' := Good (k + 1))
      (fun w' ⟨R, h, hn⟩ => good_of (back w' hr h) hn) (fun w' ⟨R, h, hn⟩ => good_of (back w' hr h) hn)
    exact this w ⟨w.refs, a_mono hw.1 (fun s hs => hs.2) (Nat.le_refl _), hw.2, nofun, nofun⟩
  · rw [if_neg hr]
    exact ⟨a_mono hw.1 (fun _ h => h) (by omega), hw.2⟩

theorem op1_command (id : Nat) : Op1 1 (refreshCommand id) := by
  intro k
  have fin : ∀ {k : Nat} (F : World → Prop) (n : Nat) (w : World),
      (∃ R, A (fun s => s ≠ .merged n ∧ dead R n s) k R n w ∧ (R.map (·.1)).Nodup) →
      Tri (fun v => v = w) (refreshReset w.workers) (Good k) F := by
    rintro k F n w ⟨R, h, hn⟩
    have hw := h.workers
    subst hw
    refine at_ (tri_conseq (t_reset (N := fun s => s ≠ .merged w.workers ∧ dead R w.workers s) ⟨nofun, trivial⟩)
      (fun _ h => h) (fun w' h' => good_of (a_mono h' (fun s hs => ?_) (Nat.le_refl _)) hn) fun _ h => h) h
    by_cases e : s = .merged w.workers
    · exact .inl e
    · exact .inr ⟨e, hs⟩
  intro w hw
  refine tri_command (P := fun v => v = w)
    (Q := fun w' => ∃ R, A (fun s => s ≠ .merged w.workers ∧ dead R w.workers s) k R w.workers w' ∧ (R.map (·.1)).Nodup)
    (E := fun w' => ∃ R, A (fun s => s ≠ .merged w.workers ∧ dead R w.workers s) (k + 1) R w.workers w' ∧ (R.map (·.1)).Nodup)
    ?_ (fun F w' h => fin F _ w' h) (fun F w' h => fin F _ w' h) w rfl
  rintro v rfl
  refine at_ (t_refresh (D := fun s => s ≠ .merged v.workers) fun _ h => h) ?_
  exact ⟨v.refs, a_mono hw.1 (fun s hs => hs.2) (Nat.le_refl _), hw.2, nofun, nofun⟩

/-- wal_rotate: only a sync that fails costs anything. -/
theorem t_rotate {sync : Bool} (h1 : N .walNew) (h2 : N .walPrev) :
    Tri (A N k R n) (rotate sync) (A (minus .wal N) k R n) (A (minus .wal N) (k + if sync then 1 else 0) R n) := by
  have early : ∀ w, A N k R n w → A (minus .wal N) (k + if sync then 1 else 0) R n w :=
    fun w h => a_mono h (fun _ hs => hs.2) (by omega)
  refine tri_bind (t_init h1) ?_
  refine tri_bind (tri_conseq (tri_onError (t_create h1) fun _ => t_closeN) (fun _ h => h) (fun _ h => h) early) ?_
  refine tri_bind (tri_modify fun w h => a_move2 (c := .walPrev) nofun nofun nofun ⟨nofun, h2⟩ h) ?_
  have key : ∀ s, minus .wal N s → plus .walPrev (plus .walNew (minus .wal (minus .walPrev (minus .walNew N)))) s := by
    rintro s ⟨e, hs⟩
    by_cases e1 : s = .walPrev
    · exact .inl e1
    · by_cases e2 : s = .walNew
      · exact .inr (.inl e2)
      · exact .inr (.inr ⟨e, e1, e2, hs⟩)
  refine tri_bind (tri_choose (fun hs => ?_) (fun _ => tri_pure)) ?_
  · refine tri_conseq t_check (fun _ h => h) (fun _ h => h) ?_
    intro w h
    rw [hs]
    exact a_mono (a_lose .walPrev h) key (Nat.le_refl _)
  · exact tri_conseq t_close (fun _ h => h) (fun w h => a_mono h key (Nat.le_refl _)) fun _ h => h

theorem op1_rotate (sync : Bool) : Op1 (if sync then 1 else 0) (rotate sync) := by
  intro k w hw
  refine tri_conseq (t_rotate (sync := sync) trivial trivial) (fun _ h => h) ?_ ?_ w hw.1
  · exact fun w' h => good_of (a_mono h (fun s hs => ⟨by rintro rfl; exact hs, hs⟩) (Nat.le_refl _)) hw.2
  · exact fun w' h => good_of (a_mono h (fun s hs => ⟨by rintro rfl; exact hs, hs⟩) (Nat.le_refl _)) hw.2

theorem op1_temporary (c : Bool) : Op1 0 (temporary c) := fun k w hw =>
  tri_conseq (t_temporary (c := c) trivial) (fun _ h => h) (fun _ h => good_of h hw.2) (fun _ h => good_of h hw.2) w hw.1

end Verif.C93
