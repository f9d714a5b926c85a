import Verif.Proofs.C74

/-! Lemmas for C74: the programs keep what is asked. -/
namespace Verif.C74
open Races
open Access (How Ty Instr lockOf Slot)
open C71 (TA SA PS nextA may Holds At)

/-- A program that uses variable 1 and leaves nothing behind. -/
macro "temp" h:ident h1:ident hj:ident hr:ident : tactic => `(tactic| (
  repeat' apply And.intro
  all_goals first
    | rfl
    | exact ($h).pend
    | exact ($h).wr
    | exact $h1
    | exact ($h).gone
    | (refine $hr _ (($h).tmp ?_ ?_ ?_ ?_ ?_) <;> simp [nextA, TA.set, TA.setOcc, ($h).wr, ($h).gone, ($h).pend, $h1:ident] <;>
        intro j hj' <;> simp [hj']; done)
    | (simp [nextA, TA.set, TA.setOcc, SA.has, useOk, lookOk, slotKeys, globKeys, guard, ($h).wr, ($h).gone, ($h).pend]; done)
    | (intro e j hj'; have hje := $hj e; simp [nextA, TA.set, TA.setOcc, hj', hje]; done)))

section
variable {single : Bool} {o : List Nat} {a : TA} {rest : List Code}

theorem At.all (h : At o 0 0 a) (hs : single = true → o = []) : single = true → ∀ j, a.occ j = false := by
  intro e; have := hs e; subst this; exact h.none (by omega)

theorem xchk_foreach (h : At o 0 0 a) (hs : single = true → o = []) (id : Nat)
    (hr : ∀ a', At o 0 0 a' → xcheck single a' false rest) : xcheck single a false (Code.engine_foreach 1 id ++ rest) := by
  have h1 := h.one
  have hj := At.all h hs
  simp only [Code.engine_foreach, Code.engine_lock, Code.engine_unlock, List.cons_append, List.nil_append, List.append_assoc, xcheck, may, opOk, Bool.false_eq_true, if_false, if_true]
  temp h h1 hj hr

theorem xchk_drop_file (h : At o 0 0 a) (hs : single = true → o = []) (id : Nat) (stop : Bool)
    (hr : ∀ a', At o 0 0 a' → xcheck single a' false rest) : xcheck single a false (Code.engine_drop_file 1 id stop ++ rest) := by
  have h1 := h.one
  have hj := At.all h hs
  cases stop
  all_goals
    simp only [Code.engine_drop_file, Code.engine_lock, Code.engine_unlock, List.cons_append, List.nil_append, List.append_assoc, xcheck, may, opOk, Bool.false_eq_true, if_false, if_true]
    temp h h1 hj hr

theorem xchk_download (h : At o 0 0 a) (hs : single = true → o = []) (id : Nat) (stop : Bool)
    (hr : ∀ a', At o 0 0 a' → xcheck single a' false rest) : xcheck single a false (Code.engine_download 1 id stop ++ rest) := by
  have h1 := h.one
  have hj := At.all h hs
  cases stop
  all_goals
    simp only [Code.engine_download, Code.engine_lock, Code.engine_unlock, List.cons_append, List.nil_append, List.append_assoc, xcheck, may, opOk, Bool.false_eq_true, if_false, if_true]
    temp h h1 hj hr

theorem xchk_upload (h : At o 0 0 a) (hs : single = true → o = []) (id : Nat) (stop : Bool)
    (hr : ∀ a', At o 0 0 a' → xcheck single a' false rest) : xcheck single a false (Code.engine_upload 1 id stop ++ rest) := by
  have h1 := h.one
  have hj := At.all h hs
  cases stop
  all_goals
    simp only [Code.engine_upload, Code.engine_lock, Code.engine_unlock, List.cons_append, List.nil_append, List.append_assoc, xcheck, may, opOk, Bool.false_eq_true, if_false, if_true]
    temp h h1 hj hr

theorem xchk_refresh (h : At o 0 0 a) (hs : single = true → o = []) (id : Nat) (stop : Instr.Stop)
    (hr : ∀ a', At o 0 0 a' → xcheck single a' false rest) : xcheck single a false (Code.refresh_run 1 id stop ++ rest) := by
  have h1 := h.one
  have hj := At.all h hs
  cases stop
  all_goals
    simp only [Code.refresh_run, Code.refresh_merge, Code.refresh_apply, Code.engine_lock, Code.engine_unlock, List.cons_append, List.nil_append, List.append_assoc, xcheck, may, opOk, Bool.false_eq_true, if_false, if_true]
    temp h h1 hj hr

theorem xchk_drop (h : At o 0 0 a) (id : Nat) (b : Bool)
    (hr : ∀ a', At o 0 0 a' → xcheck single a' false rest) : xcheck single a false (Code.engine_drop_reference id b ++ rest) := by
  have h1 := h.one
  have hj : single = true → True := fun _ => trivial
  simp only [Code.engine_drop_reference, List.cons_append, List.nil_append, List.append_assoc, xcheck, may, opOk, Bool.false_eq_true, if_false, if_true]
  temp h h1 hj hr

theorem xchk_fill (h : At o 0 0 a) (id min max : Nat)
    (hr : ∀ a', At o 0 0 a' → xcheck single a' false rest) : xcheck single a false (Code.engine_fill 1 id min max ++ rest) := by
  have h1 := h.one
  have hj : single = true → True := fun _ => trivial
  simp only [Code.engine_fill, List.cons_append, List.nil_append, List.append_assoc, xcheck, may, opOk, Bool.false_eq_true, if_false, if_true]
  temp h h1 hj hr

theorem xchk_show (h : At o 0 0 a) 
    (hr : ∀ a', At o 0 0 a' → xcheck single a' false rest) : xcheck single a false (Code.engine_show ++ rest) := by
  have h1 := h.one
  have hj : single = true → True := fun _ => trivial
  simp only [Code.engine_show, List.cons_append, List.nil_append, List.append_assoc, xcheck, may, opOk, Bool.false_eq_true, if_false, if_true]
  temp h h1 hj hr

theorem xchk_gc (h : At o 0 0 a) 
    (hr : ∀ a', At o 0 0 a' → xcheck single a' false rest) : xcheck single a false (Code.engine_gc ++ rest) := by
  have h1 := h.one
  have hj : single = true → True := fun _ => trivial
  simp only [Code.engine_gc, List.cons_append, List.nil_append, List.append_assoc, xcheck, may, opOk, Bool.false_eq_true, if_false, if_true]
  temp h h1 hj hr

theorem xchk_checkpoint (h : At o 0 0 a) 
    (hr : ∀ a', At o 0 0 a' → xcheck single a' false rest) : xcheck single a false (Code.engine_checkpoint ++ rest) := by
  have h1 := h.one
  have hj : single = true → True := fun _ => trivial
  simp only [Code.engine_checkpoint, List.cons_append, List.nil_append, List.append_assoc, xcheck, may, opOk, Bool.false_eq_true, if_false, if_true]
  temp h h1 hj hr

theorem xchk_resume (h : At o 0 0 a) 
    (hr : ∀ a', At o 0 0 a' → xcheck single a' false rest) : xcheck single a false (Code.engine_resume ++ rest) := by
  have h1 := h.one
  have hj : single = true → True := fun _ => trivial
  simp only [Code.engine_resume, List.cons_append, List.nil_append, List.append_assoc, xcheck, may, opOk, Bool.false_eq_true, if_false, if_true]
  temp h h1 hj hr

theorem xchk_rebalance (h : At o 0 0 a) (id : Nat)
    (hr : ∀ a', At o 0 0 a' → xcheck single a' false rest) : xcheck single a false (Code.engine_rebalance id ++ rest) := by
  have h1 := h.one
  have hj : single = true → True := fun _ => trivial
  simp only [Code.engine_rebalance, List.cons_append, List.nil_append, List.append_assoc, xcheck, may, opOk, Bool.false_eq_true, if_false, if_true]
  temp h h1 hj hr

/-! Cursors and records -/

/-- A cursor is opened. -/
theorem xchk_open (h : At o 0 0 a) {c : Nat} (hc : c ∉ o) (hs : single = true → o = []) (id : Nat)
    (hr : ∀ a', At (c :: o) 0 0 a' → xcheck single a' false rest) :
    xcheck single a false (Code.cursor_open (2 * c) id ++ rest) := by
  have h1 : a.occ (2 * c) = false := by
    cases e : a.occ (2 * c) with
    | false => rfl
    | true => exact absurd ((h.even c).1 e) hc
  have hj := At.all h hs
  simp only [Code.cursor_open, Code.engine_lock, Code.cursor_reads, List.cons_append, List.nil_append, List.append_assoc,
    xcheck, may, opOk]
  have hlast : ∀ a', a'.pend = false → a'.wr = false → a'.gone = false →
      (∀ j, j ≠ 2 * c → a'.occ j = a.occ j ∧ a'.sl j = a.sl j) → a'.occ (2 * c) = true →
      a'.sl (2 * c) = ⟨false, true, .cur⟩ → At (c :: o) 0 0 a' := by
    intro a' e1 e2 e3 e4 e5 e6
    refine ⟨e1, e2, e3, ?_, ?_, ?_, ?_⟩
    · intro d
      by_cases e : d = c
      · subst e; simp [e5]
      · rw [(e4 _ (by omega)).1, h.even d]; simp [e]
    · intro d; rw [(e4 _ (by omega)).1]; exact h.odd d
    · intro d hd
      by_cases e : d = c
      · subst e; exact e6
      · rw [(e4 _ (by omega)).2]; exact h.cursor d (by simpa [e] using hd)
    · intro d _ hd; omega
  repeat' apply And.intro
  all_goals first
    | rfl
    | exact h.pend
    | exact h.wr
    | exact h1
    | (refine hr _ (hlast _ ?_ ?_ ?_ ?_ ?_ ?_) <;> simp [nextA, TA.set, TA.setOcc, h.wr, h.gone] <;> intro j hj' <;>
        simp [hj']; done)
    | (simp [nextA, TA.set, TA.setOcc, SA.has, useOk, slotKeys, guard, h.gone]; done)
    | (intro e j hj'; simp [nextA, TA.set, TA.setOcc, hj', hj e]; done)

/-- A cursor is closed. -/
theorem xchk_close (h : At o 0 0 a) {c : Nat} (hc : c ∈ o)
    (hr : ∀ a', At (o.filter (· ≠ c)) 0 0 a' → xcheck single a' false rest) :
    xcheck single a false (Code.cursor_close (2 * c) ++ rest) := by
  have h1 := (h.even c).2 hc
  have h2 := h.cursor c hc
  simp only [Code.cursor_close, Code.engine_unlock, List.cons_append, List.nil_append, List.append_assoc,
    xcheck, may, opOk]
  have hlast : ∀ a', a'.pend = false → a'.wr = false → a'.gone = false →
      (∀ j, j ≠ 2 * c → a'.occ j = a.occ j ∧ a'.sl j = a.sl j) → a'.occ (2 * c) = false →
      At (o.filter (· ≠ c)) 0 0 a' := by
    intro a' e1 e2 e3 e4 e5
    refine ⟨e1, e2, e3, ?_, ?_, ?_, ?_⟩
    · intro d
      by_cases e : d = c
      · subst e; simp [e5]
      · rw [(e4 _ (by omega)).1, h.even d]; simp [e]
    · intro d; rw [(e4 _ (by omega)).1]; exact h.odd d
    · intro d hd
      have hd' : d ∈ o ∧ d ≠ c := by simpa using hd
      rw [(e4 _ (by omega)).2]; exact h.cursor d hd'.1
    · intro d _ hd; omega
  repeat' apply And.intro
  all_goals first
    | rfl
    | exact h1
    | (refine hr _ (hlast _ ?_ ?_ ?_ ?_ ?_) <;> simp [nextA, TA.set, TA.setOcc, h.wr, h.gone, h.pend] <;> intro j hj' <;>
        simp [hj']; done)
    | (simp [nextA, TA.set, TA.setOcc, SA.has, useOk, slotKeys, guard, h.gone, h2]; done)

theorem xchk_read (h : At o 0 0 a) {c : Nat} (hc : c ∈ o)
    (hr : ∀ a', At o 0 0 a' → xcheck single a' false rest) :
    xcheck single a false (Code.cursor_use (2 * c) ++ rest) := by
  simp only [Code.cursor_use, Code.cursor_reads, List.cons_append, List.nil_append, xcheck, may]
  refine ⟨by rw [h.cursor c hc]; simp, ?_, hr _ h⟩
  rw [h.cursor c hc]
  simp [useOk, slotKeys, guard]

/-- A record is written. -/
theorem xchk_write_one {hi : Nat} (h : At o 0 hi a) (e : Nat × How) (hs : single = true → o = [] ∧ hi = 0)
    (hr : ∀ a', At o 0 (hi + 1) a' → xcheck single a' false rest) :
    xcheck single a false (Code.write_one (2 * hi + 1) e ++ rest) := by
  have h1 : a.occ (2 * hi + 1) = false := by
    cases e : a.occ (2 * hi + 1) with
    | false => rfl
    | true => have := (h.odd hi).1 e; omega
  have hj : single = true → ∀ j, a.occ j = false := by
    intro e
    obtain ⟨e1, e2⟩ := hs e
    subst e1 e2
    exact h.none (by omega)
  simp only [Code.write_one, Code.engine_lock, List.cons_append, List.nil_append, List.append_assoc, xcheck, may, opOk]
  have hlast : ∀ a', a'.pend = false → a'.wr = false → a'.gone = false →
      (∀ j, j ≠ 2 * hi + 1 → a'.occ j = a.occ j ∧ a'.sl j = a.sl j) → a'.occ (2 * hi + 1) = true →
      a'.sl (2 * hi + 1) = ⟨false, true, .cur⟩ → At o 0 (hi + 1) a' := by
    intro a' e1 e2 e3 e4 e5 e6
    refine ⟨e1, e2, e3, ?_, ?_, ?_, ?_⟩
    · intro d; rw [(e4 _ (by omega)).1]; exact h.even d
    · intro d
      by_cases e : d = hi
      · subst e; simp [e5]
      · rw [(e4 _ (by omega)).1, h.odd d]; omega
    · intro d hd; rw [(e4 _ (by omega)).2]; exact h.cursor d hd
    · intro d h3 h4
      by_cases e : d = hi
      · subst e; exact e6
      · rw [(e4 _ (by omega)).2]; exact h.record d h3 (by omega)
  repeat' apply And.intro
  all_goals first
    | rfl
    | exact h.pend
    | exact h.wr
    | exact h1
    | (refine hr _ (hlast _ ?_ ?_ ?_ ?_ ?_ ?_) <;> simp [nextA, TA.set, TA.setOcc, h.wr, h.gone] <;> intro j hj' <;>
        simp [hj']; done)
    | (simp [nextA, TA.set, TA.setOcc, SA.has, useOk, slotKeys, guard, h.gone]; done)
    | (intro e j hj'; simp [nextA, TA.set, TA.setOcc, hj', hj e]; done)

/-- A record is committed or rolled back: the first or the last one in use. -/
theorem xchk_end_one {lo hi lo' hi' i : Nat} {fn : Fn} {acc : List (Field × Bool)} (h : At o lo hi a) (h1 : lo ≤ i) (h2 : i < hi)
    (hcase : (i = lo ∧ lo' = lo + 1 ∧ hi' = hi) ∨ (i + 1 = hi ∧ lo' = lo ∧ hi' = i))
    (hg : guard fn .ref false = some [.A])
    (hu : ∀ z ∈ acc, guard fn (.part z.1) z.2 = some [.A])
    (hr : ∀ a', At o lo' hi' a' → xcheck single a' false rest) :
    xcheck single a false
      (([.op (.load (2 * i + 1)) fn, .use (2 * i + 1) fn acc] ++ Code.engine_unlock (2 * i + 1) .access) ++ rest) := by
  have h3 := (h.odd i).2 ⟨h1, h2⟩
  have h4 := h.record i h1 h2
  simp only [Code.engine_unlock, List.cons_append, List.nil_append, List.append_assoc, xcheck, may, opOk]
  have hlast : ∀ a', a'.pend = false → a'.wr = false → a'.gone = false →
      (∀ j, j ≠ 2 * i + 1 → a'.occ j = a.occ j ∧ a'.sl j = a.sl j) → a'.occ (2 * i + 1) = false →
      At o lo' hi' a' := by
    intro a' e1 e2 e3 e4 e5
    refine ⟨e1, e2, e3, ?_, ?_, ?_, ?_⟩
    · intro d; rw [(e4 _ (by omega)).1]; exact h.even d
    · intro d
      by_cases e : d = i
      · subst e; simp [e5]; omega
      · rw [(e4 _ (by omega)).1, h.odd d]; omega
    · intro d hd; rw [(e4 _ (by omega)).2]; exact h.cursor d hd
    · intro d h5 h6
      rw [(e4 _ (by omega)).2]; exact h.record d (by omega) (by omega)
  have hua : (acc.all fun z => match guard fn (.part z.1) z.2 with
      | some g => slotKeys ⟨false, true, .cur⟩ false g
      | none => false) = true := by
    rw [List.all_eq_true]
    intro z hz
    rw [hu z hz]
    rfl
  repeat' apply And.intro
  all_goals first
    | rfl
    | exact h3
    | (rw [hg, h4]; rfl)
    | (refine hr _ (hlast _ ?_ ?_ ?_ ?_ ?_) <;> simp [nextA, TA.set, TA.setOcc, h.wr, h.gone, h.pend] <;> intro j hj' <;>
        simp [hj']; done)
    | (refine .inl ⟨?_, ?_⟩ <;> simp only [nextA, TA.set, TA.setOcc, h4, if_true]; exact hua)
    | (simp [nextA, TA.set, TA.setOcc, SA.has, h.gone, h4, h3]; done)

theorem xchk_writes (es : List (Nat × How)) : ∀ {hi a}, At o 0 hi a →
    (single = true → o = [] ∧ hi = 0 ∧ es.length ≤ 1) →
    (∀ a', At o 0 (hi + es.length) a' → xcheck single a' false rest) →
    xcheck single a false (Code.writes hi es ++ rest) := by
  induction es with
  | nil => intro hi a h _ hr; exact hr a h
  | cons e es ih =>
    intro hi a h hs hr
    rw [Code.writes, List.append_assoc]
    refine xchk_write_one h e (fun c => ⟨(hs c).1, (hs c).2.1⟩) ?_
    intro a' h'
    cases es with
    | nil => exact hr a' h'
    | cons e' es' =>
      refine ih h' ?_ ?_
      · intro c; have := (hs c).2.2; simp at this
      · intro a'' h''; exact hr a'' (by rw [List.length_cons (a := e), Nat.add_comm _ 1, ← Nat.add_assoc]; exact h'')

theorem xchk_commits (m : Nat) : ∀ {lo a}, At o lo (lo + m) a →
    (∀ a', At o 0 0 a' → xcheck single a' false rest) → xcheck single a false (Code.commits lo m ++ rest) := by
  induction m with
  | zero => intro lo a h hr; exact hr a h.norm
  | succ m ih =>
    intro lo a h hr
    rw [Code.commits, List.append_assoc]
    refine xchk_end_one h (Nat.le_refl _) (by omega) (.inl ⟨rfl, rfl, rfl⟩) rfl ?_ ?_
    · simp [guard]
    intro a' h'
    exact ih (by rw [show lo + (m + 1) = lo + 1 + m by omega] at h'; exact h') hr

theorem xchk_rollbacks (m : Nat) : ∀ {a}, At o 0 m a →
    (∀ a', At o 0 0 a' → xcheck single a' false rest) → xcheck single a false (Code.rollbacks m ++ rest) := by
  induction m with
  | zero => intro a h hr; exact hr a h
  | succ m ih =>
    intro a h hr
    rw [Code.rollbacks, List.append_assoc]
    refine xchk_end_one h (Nat.zero_le _) (by omega) (.inr ⟨rfl, rfl, rfl⟩) rfl ?_ (fun a' h' => ih h' hr)
    simp [guard]

theorem xchk_write (h : At o 0 0 a) (es : List (Nat × How)) (back : Bool)
    (hs : single = true → o = [] ∧ es.length ≤ 1) (hr : ∀ a', At o 0 0 a' → xcheck single a' false rest) :
    xcheck single a false (Code.engine_write es back ++ rest) := by
  rw [Code.engine_write, List.append_assoc]
  refine xchk_writes es h (fun c => ⟨(hs c).1, rfl, (hs c).2⟩) ?_
  intro a' h'
  rw [Nat.zero_add] at h'
  cases back
  · exact xchk_commits es.length (lo := 0) (by rw [Nat.zero_add]; exact h') hr
  · exact xchk_rollbacks es.length h' hr

end

/-- A program that uses its cursors as it should keeps what is asked. -/
theorem xchk_proper (l : List Call) : ∀ {o a}, At o 0 0 a → Proper o l →
    xcheck false a false (l.flatMap Call.code) := by
  have no : ∀ {P : Prop}, false = true → P := fun e => by cases e
  induction l with
  | nil => intro o a _ _; trivial
  | cons x l ih =>
    intro o a h hp
    rw [List.flatMap_cons]
    cases x with
    | write es back => exact xchk_write h es back no (fun a' h' => ih h' hp)
    | open_ c id => exact xchk_open h hp.1 no id (fun a' h' => ih h' hp.2)
    | read c => exact xchk_read h hp.1 (fun a' h' => ih h' hp.2)
    | move c id =>
      show xcheck false a false (Code.cursor_close (2 * c) ++ Code.cursor_open (2 * c) id ++ _)
      rw [List.append_assoc]
      refine xchk_close h hp.1 ?_
      intro a' h'
      refine xchk_open h' (by simp) no id ?_
      intro a'' h''
      refine ih (o := o) ?_ hp.2
      refine ⟨h''.pend, h''.wr, h''.gone, ?_, h''.odd, ?_, h''.record⟩
      · intro d
        rw [h''.even]
        have := hp.1
        by_cases e : d = c
        · subst e; simp [this]
        · simp [e]
      · intro d hd
        refine h''.cursor d ?_
        by_cases e : d = c
        · simp [e]
        · simp [e, hd]
    | close c => exact xchk_close h hp.1 (fun a' h' => ih h' hp.2)
    | foreach_ id => exact xchk_foreach h no id (fun a' h' => ih h' hp)
    | dropFile id stop => exact xchk_drop_file h no id stop (fun a' h' => ih h' hp)
    | download id stop => exact xchk_download h no id stop (fun a' h' => ih h' hp)
    | upload id stop => exact xchk_upload h no id stop (fun a' h' => ih h' hp)
    | refresh id stop => exact xchk_refresh h no id stop (fun a' h' => ih h' hp)
    | drop id b => exact xchk_drop h id b (fun a' h' => ih h' hp)
    | fill id lo hi => exact xchk_fill h id lo hi (fun a' h' => ih h' hp)
    | show_ => exact xchk_show h (fun a' h' => ih h' hp)
    | gc => exact xchk_gc h (fun a' h' => ih h' hp)
    | rebalance id => exact xchk_rebalance h id (fun a' h' => ih h' hp)
    | checkpoint => exact xchk_checkpoint h (fun a' h' => ih h' hp)
    | resume => exact xchk_resume h (fun a' h' => ih h' hp)

/-- And with one cursor at a time, and nothing else meanwhile, more is kept. -/
theorem xchk_single (l : List Call) : ∀ {o a b}, At o 0 0 a → Proper o l → Single b l → (b = false → o = []) →
    o.length ≤ 1 → xcheck true a false (l.flatMap Call.code) := by
  induction l with
  | nil => intro o a b _ _ _ _ _; trivial
  | cons x l ih =>
    intro o a b h hp hs hb hlen
    have alone : ∀ {c}, c ∈ o → o = [c] := by
      intro c hc
      match o, hlen, hc with
      | [y], _, hc => simp at hc; rw [hc]
    rw [List.flatMap_cons]
    cases x with
    | write es back =>
      obtain ⟨e1, e2, e3⟩ := hs
      exact xchk_write h es back (fun _ => ⟨hb e1, e2⟩) (fun a' h' => ih h' hp e3 hb hlen)
    | open_ c id =>
      refine xchk_open h hp.1 (fun _ => hb hs.1) id (fun a' h' => ih h' hp.2 hs.2 ?_ ?_)
      · intro e; cases e
      · rw [hb hs.1]; simp
    | read c => exact xchk_read h hp.1 (fun a' h' => ih h' hp.2 hs hb hlen)
    | move c id =>
      show xcheck true a false (Code.cursor_close (2 * c) ++ Code.cursor_open (2 * c) id ++ _)
      have ho := alone hp.1
      subst ho
      rw [List.append_assoc]
      refine xchk_close h hp.1 ?_
      intro a' h'
      refine xchk_open h' (by simp) (fun _ => by simp) id ?_
      intro a'' h''
      exact ih (by simpa using h'') hp.2 hs hb hlen
    | close c =>
      have ho := alone hp.1
      subst ho
      refine xchk_close h hp.1 (fun a' h' => ih h' hp.2 hs ?_ ?_)
      · intro _; simp
      · simp
    | foreach_ id => exact xchk_foreach h (fun _ => hb hs.1) id (fun a' h' => ih h' hp hs.2 hb hlen)
    | dropFile id stop => exact xchk_drop_file h (fun _ => hb hs.1) id stop (fun a' h' => ih h' hp hs.2 hb hlen)
    | download id stop => exact xchk_download h (fun _ => hb hs.1) id stop (fun a' h' => ih h' hp hs.2 hb hlen)
    | upload id stop => exact xchk_upload h (fun _ => hb hs.1) id stop (fun a' h' => ih h' hp hs.2 hb hlen)
    | refresh id stop => exact xchk_refresh h (fun _ => hb hs.1) id stop (fun a' h' => ih h' hp hs.2 hb hlen)
    | drop id b => exact xchk_drop h id b (fun a' h' => ih h' hp hs.2 hb hlen)
    | fill id lo hi => exact xchk_fill h id lo hi (fun a' h' => ih h' hp hs.2 hb hlen)
    | show_ => exact xchk_show h (fun a' h' => ih h' hp hs.2 hb hlen)
    | gc => exact xchk_gc h (fun a' h' => ih h' hp hs.2 hb hlen)
    | rebalance id => exact xchk_rebalance h id (fun a' h' => ih h' hp hs.2 hb hlen)
    | checkpoint => exact xchk_checkpoint h (fun a' h' => ih h' hp hs.2 hb hlen)
    | resume => exact xchk_resume h (fun a' h' => ih h' hp hs.2 hb hlen)

/-! ### The functions of a program -/

def Code.fn : Code → Option Fn
  | .op _ f => some f
  | .use _ f _ => some f
  | .look f _ _ => some f
  | _ => none

theorem touches_fn {s : Access.State} {t : Nat} {fn : Fn} {x : Instr} {z : Acc} (h : z ∈ touches s t fn x) :
    z.fn = fn := by
  have pf : ∀ p, z ∈ part_free fn p → z.fn = fn := by
    intro p h
    obtain ⟨f, _, e⟩ := List.mem_map.1 h
    subst e; rfl
  cases x <;> simp only [touches] at h <;> (repeat' split at h) <;>
    (try simp only [List.mem_cons, List.mem_append, List.not_mem_nil, or_false, List.append_nil] at h) <;> grind

theorem accesses_fn {s : State} {t : Nat} {z : Acc} (h : z ∈ accesses s t) :
    ∃ c ∈ s.code t, Code.fn c = some z.fn := by
  unfold accesses at h
  cases hc : s.code t with
  | nil => rw [hc] at h; cases h
  | cons c k =>
    rw [hc] at h
    refine ⟨c, List.mem_cons_self .., ?_⟩
    cases c with
    | mutex_lock => cases h
    | mutex_unlock => cases h
    | op x fn => rw [touches_fn h]; rfl
    | use i fn acc =>
      dsimp only at h
      split at h
      · split at h
        · obtain ⟨y, _, e⟩ := List.mem_map.1 h
          subst e; rfl
        · cases h
      · cases h
    | look fn pick acc =>
      dsimp only at h
      obtain ⟨y, _, h⟩ := List.mem_flatMap.1 h
      obtain ⟨l, _, e⟩ := List.mem_map.1 h
      subst e; rfl

theorem step_code {s s' : State} {t : Nat} {w : Bool} (h : step s t w = .ok s') (u : Nat) :
    ∀ c ∈ s'.code u, c ∈ s.code u := by
  have key : ∀ c k, s.code t = c :: k → ∀ x ∈ setCode s t k u, x ∈ s.code u := by
    intro c k hc x hx
    by_cases e : u = t
    · subst e; rw [setCode_same] at hx; rw [hc]; exact List.mem_cons_of_mem _ hx
    · rw [setCode_ne s k e] at hx; exact hx
  simp only [step] at h
  cases hc : s.code t with
  | nil => rw [hc] at h; cases h; exact fun _ h => h
  | cons c k =>
    rw [hc] at h
    have third : ∀ {b}, (if (s.base.locks.wait t).isSome ∧ s.mutex.isSome then .ok s
        else
          (Access.step s.base t w).bind fun b =>
            if (b.th t).todo.length < (s.base.th t).todo.length then
              .ok ⟨b, if (s.base.locks.wait t).isSome then some t else s.mutex, setCode s t k⟩
            else
              .ok ⟨b, if (b.locks.wait t).isSome ∧ s.mutex = some t then none else s.mutex, s.code⟩) = Res.ok b →
        ∀ c ∈ b.code u, c ∈ s.code u := by
      intro b hb
      split at hb
      · injection hb with hb; subst hb; exact fun _ h => h
      · obtain ⟨z, _, hb⟩ := Res.bind_eq_ok.1 hb
        split at hb
        · injection hb with hb; subst hb; exact key c k hc
        · injection hb with hb; subst hb; exact fun _ h => h
    cases c with
    | mutex_lock =>
      dsimp only at h
      split at h
      · injection h with h; subst h; exact key _ k hc
      · injection h with h; subst h; exact fun _ h => h
    | mutex_unlock =>
      dsimp only at h
      split at h
      · injection h with h; subst h; exact key _ k hc
      · cases h
    | op x fn => exact third h
    | use i fn acc => exact third h
    | look fn p acc => exact third h

theorem run_code (sched : List (Nat × Bool)) : ∀ {s s'}, run s sched = .ok s' → ∀ u, ∀ c ∈ s'.code u, c ∈ s.code u := by
  induction sched with
  | nil => intro s s' h u; cases h; exact fun _ h => h
  | cons x l ih =>
    intro s s' h u c hc
    obtain ⟨z, h1, h2⟩ := Res.bind_eq_ok.1 h
    exact step_code h1 u c (ih h2 u c hc)

def quietFn : Fn → Bool
  | .engine_show => false
  | .engine_download => false
  | .engine_rebalance => false
  | _ => true

theorem known_loud {f g x} (h : Known f g x) : quietFn f = false ∨ quietFn g = false := by
  cases x <;> simp only [Known] at h
  · exact .inl (by rw [h.1]; rfl)
  · rcases h with ⟨h, _⟩ | ⟨_, h⟩
    · exact .inl (by rw [h]; rfl)
    · exact .inr (by rw [h]; rfl)
  · exact .inl (by rw [h.1]; rfl)
  · exact .inr (by rw [h.2]; rfl)

def quietCode (c : Code) : Bool := match Code.fn c with
  | some f => quietFn f
  | none => true

theorem quiet_writes (es : List (Nat × How)) : ∀ k, (Code.writes k es).all quietCode = true := by
  induction es with
  | nil => intro k; rfl
  | cons e es ih => intro k; rw [Code.writes, List.all_append, ih]; rfl

theorem quiet_commits (m : Nat) : ∀ k, (Code.commits k m).all quietCode = true := by
  induction m with
  | zero => intro k; rfl
  | succ m ih => intro k; rw [Code.commits, List.all_append, ih]; rfl

theorem quiet_rollbacks (m : Nat) : (Code.rollbacks m).all quietCode = true := by
  induction m with
  | zero => rfl
  | succ m ih => rw [Code.rollbacks, List.all_append, ih]; rfl

theorem quiet_code {c : Call} (h : Quiet c) : c.code.all quietCode = true := by
  cases c with
  | write es back =>
    simp only [Call.code, Code.engine_write, List.all_append, quiet_writes, Bool.true_and]
    cases back
    · exact quiet_commits _ _
    · exact quiet_rollbacks _
  | show_ => cases h
  | download id stop => cases h
  | rebalance id => cases h
  | dropFile id stop => cases stop <;> rfl
  | upload id stop => cases stop <;> rfl
  | refresh id stop => cases stop <;> rfl
  | _ => rfl

/-- Programs without the calls that race do not race. -/
theorem quiet_run {prog : Nat → List Call} {sched : List (Nat × Bool)} {s : State} (h : run (start prog) sched = .ok s)
    (hq : ∀ t, ∀ c ∈ prog t, Quiet c) {t : Nat} {z : Acc} (hz : z ∈ accesses s t) : quietFn z.fn = true := by
  obtain ⟨c, hc, e⟩ := accesses_fn hz
  have hc' := run_code sched h t c hc
  obtain ⟨x, hx, hcx⟩ := List.mem_flatMap.1 hc'
  have := List.all_eq_true.1 (quiet_code (hq t x hx)) c hcx
  simp only [quietCode, e] at this
  exact this

/-! ### Runs that can be computed -/

def nestsB (s : State) (t : Nat) : Bool :=
  match s.code t with
  | .op (.lock i ty) _ :: _ =>
    match (s.base.th t).slot i with
    | some v => decide ((s.base.locks.lock (lockOf v.ref ty)).locker = some t)
    | none => false
  | _ => false

theorem nests_of {s : State} {t : Nat} (h : nestsB s t = false) : ¬ Nests s t := by
  rintro ⟨i, ty, fn, k, v, e1, e2, e3⟩
  simp only [nestsB, e1, e2, e3, decide_true] at h
  cases h

def calmB (s : State) : List (Nat × Bool) → Bool
  | [] => true
  | (t, w) :: l => ! nestsB s t && match step s t w with
    | .ok s' => calmB s' l
    | _ => true

theorem calm_of (sched : List (Nat × Bool)) : ∀ {s}, calmB s sched = true → Calm s sched := by
  induction sched with
  | nil => intro s _; trivial
  | cons x l ih =>
    intro s h
    obtain ⟨t, w⟩ := x
    simp only [calmB, Bool.and_eq_true, Bool.not_eq_true'] at h
    refine ⟨nests_of h.1, ?_⟩
    intro s' e
    have := h.2
    rw [e] at this
    exact ih this

/-- Threads 0 and 1 touch these places after the run. -/
def raceB (prog : Nat → List Call) (sched : List (Nat × Bool)) (x y : Acc) : Bool :=
  match run (start prog) sched with
  | .ok s => decide (x ∈ accesses s 0) && decide (y ∈ accesses s 1) && decide (x.loc = y.loc) && (x.w || y.w)
  | _ => false

theorem race_of {prog sched x y} (h : raceB prog sched x y = true) :
    ∃ s, run (start prog) sched = .ok s ∧ Race s x y := by
  unfold raceB at h
  split at h
  · rename_i s e
    simp only [Bool.and_eq_true, decide_eq_true_eq, Bool.or_eq_true] at h
    exact ⟨s, e, 0, 1, by decide, h.1.1.1, h.1.1.2, h.1.2, h.2⟩
  · cases h

/-- Thread `t` goes `k` steps. -/
def go (t k : Nat) : List (Nat × Bool) := List.replicate k (t, false)

theorem lt_of_all {n : Nat} {sched : List (Nat × Bool)} (h : (sched.all fun x => decide (x.1 < n)) = true) :
    ∀ x ∈ sched, x.1 < n := fun x hx => of_decide_eq_true (List.all_eq_true.1 h x hx)

end Verif.C74
