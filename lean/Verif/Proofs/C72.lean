import Verif.Spec.C72
import Verif.Proofs.C31

/-! Lemmas for C72: an invariant of the threads, the locks, the versions and the log. -/
namespace Verif.C72
open Interleave
open Wal (Rec)

/-! ### What the log tells -/

theorem version_write (iv : Nat) (k : Key) (n c : Nat) (es : List Event) : ∀ l : List Rec,
    Dur.version iv k (l ++ [.write n c es]) = match Dur.lastOf es k with
      | some e => some e
      | none => Dur.version iv k l := by
  intro l
  induction l with
  | nil =>
    simp only [List.nil_append, Dur.version, List.any_nil, Bool.false_eq_true, if_false]
    cases Dur.lastOf es k <;> rfl
  | cons r rs ih =>
    simp only [List.cons_append, Dur.version, ih, List.any_append, List.any_cons, List.any_nil, Bool.or_false]
    cases Dur.lastOf es k <;> rfl

theorem version_drop (iv : Nat) (k : Key) (n p : Nat) : ∀ l : List Rec,
    Dur.version iv k (l ++ [.drop n p]) = if p = Dur.partOf iv k.1 then none else Dur.version iv k l := by
  intro l
  induction l with
  | nil => simp [Dur.version]
  | cons r rs ih =>
    simp only [List.cons_append, Dur.version, ih, List.any_append, List.any_cons, List.any_nil, Bool.or_false]
    by_cases h : p = Dur.partOf iv k.1
    · simp [h]
    · rw [if_neg h, if_neg h]
      have : (p == Dur.partOf iv k.1) = false := by simpa using h
      rw [this, Bool.or_false]

/-- The last event of a batch is the first one from the end. -/
theorem lastOf_rev (D : List Event) (k : Key) : Dur.lastOf D.reverse k = D.find? (fun e => e.pair == k) := by
  unfold Dur.lastOf
  rw [List.filter_reverse, List.getLast?_reverse]
  induction D with
  | nil => rfl
  | cons e D ih =>
    rw [List.filter_cons, List.find?_cons]
    cases h : (e.pair == k) with
    | true => simp
    | false => simpa using ih

/-! ### What is known of a thread -/

structure TA where
  pend : Bool
  wr : Bool
  gone : Bool
  H : List Nat
  /-- the events that were set and are not in the log, the last first -/
  D : List Event

def idle : TA := ⟨false, false, false, [], []⟩

def part (iv : Nat) (e : Event) : Nat := Dur.partOf iv e.id

def nextA (a : TA) : Instr → TA
  | .shared => { a with pend := true }
  | .exclusive => { a with wr := true }
  | .release => if a.wr then { a with wr := false } else { a with pend := false }
  | .lock p => { a with H := p :: a.H, pend := false }
  | .unlock p => { a with H := a.H.erase p, pend := true }
  | .set e => { a with D := e :: a.D }
  | .log _ => { a with D := [] }
  | .undo => { a with D := a.D.tail }
  | .read _ => a
  | .remove _ => { a with gone := true }
  | .logDrop => { a with gone := false }

/-- What is asked before a step; `A` are the partitions the thread touches, `B` those it drops. -/
def may (iv : Nat) (A B : Nat → Prop) (a : TA) : Instr → Prop
  | .shared => a.pend = false ∧ a.wr = false ∧ a.gone = false
  | .exclusive => a.pend = false ∧ a.wr = false ∧ a.H = [] ∧ a.gone = false
  | .release => a.wr = true ∨ a.pend = true
  | .lock p => a.pend = true ∧ p ∉ a.H ∧ A p ∧ a.gone = false
  | .unlock p => p ∈ a.H ∧ a.pend = false ∧ p ∉ a.D.map (part iv)
  | .set e => part iv e ∈ a.H ∧ part iv e ∉ a.D.map (part iv)
  | .log es => a.D.reverse = es
  | .undo => a.D ≠ []
  | .read p => p ∈ a.H ∧ a.D = []
  | .remove p => a.wr = true ∧ a.gone = false ∧ B p
  | .logDrop => True

def check (iv : Nat) (A B : Nat → Prop) : TA → List Instr → Prop
  | a, [] => a = idle
  | a, x :: k => may iv A B a x ∧ check iv A B (nextA a x) k

/-- The partition locks. -/
structure Lk (n : Nat) (s : State) (d : Nat → Nat → Nat) (a : Nat → TA) : Prop where
  locks : C31.Inv n ⟨s.locks, d⟩
  hold : ∀ t l, d t l = 1 ↔ ∃ p, p ∈ (a t).H ∧ l = Act.accessOf p
  wait : ∀ t l b, s.locks.wait t = some (l, b) → ∃ p k, (s.th t).todo = .lock p :: k ∧ l = Act.accessOf p

/-- The control lock: who has it how often. -/
structure Ct (s : State) (a : Nat → TA) (R : List (Nat × Option Nat)) : Prop where
  nodup : R.Nodup
  len : s.control.readers = R.length
  held : ∀ t p, (t, some p) ∈ R ↔ p ∈ (a t).H
  pend : ∀ t, (t, none) ∈ R ↔ (a t).pend = true
  writer : ∀ t, s.control.writer = some t ↔ (a t).wr = true
  alone : ∀ t, s.control.writer = some t → s.control.readers = 0

/-- What a thread that has a partition makes of what the log tells. -/
def over (D : List Event) (k : Key) (v : Option Event) : Option Event :=
  match D.find? (fun e => e.pair == k) with
  | some e => some e
  | none => v

/-- The versions and the log. -/
structure Mm (iv : Nat) (A B : Nat → Nat → Prop) (s : State) (a : Nat → TA) : Prop where
  nodup : ∀ t, (a t).H.Nodup
  sub : ∀ t, ∀ e ∈ (a t).D, part iv e ∈ (a t).H
  once : ∀ t, ((a t).D.map (part iv)).Nodup
  undo : ∀ t, (s.th t).undo = (a t).D.map fun e => (e.pair, Dur.version iv e.pair s.log)
  acc : ∀ t, ∀ p ∈ (a t).H, A t p
  held : ∀ t, ∀ k : Key, Dur.partOf iv k.1 ∈ (a t).H → s.mem k = over (a t).D k (Dur.version iv k s.log)
  idle : ∀ t, (a t).gone = true → (a t).H = []
  gone : ∀ t p, (s.th t).gone = some p → (a t).gone = true ∧ B t p ∧ ∀ k : Key, Dur.partOf iv k.1 = p → s.mem k = none
  free : ∀ k : Key, (∀ t, Dur.partOf iv k.1 ∉ (a t).H) → (∀ t, (s.th t).gone ≠ some (Dur.partOf iv k.1)) →
    s.mem k = Dur.version iv k s.log

structure Inv (iv n : Nat) (A B : Nat → Nat → Prop) (s : State) (d : Nat → Nat → Nat) (a : Nat → TA)
    (R : List (Nat × Option Nat)) : Prop where
  chk : ∀ t, check iv (A t) (B t) (a t) (s.th t).todo
  lk : Lk n s d a
  ct : Ct s a R
  mm : Mm iv A B s a

theorem access_inj {p q : Nat} (h : Act.accessOf p = Act.accessOf q) : p = q := by
  unfold Act.accessOf at h; omega

def upd (a : Nat → TA) (t : Nat) (x : TA) : Nat → TA := fun u => if u = t then x else a u

theorem upd_same (a : Nat → TA) (t : Nat) (x : TA) : upd a t x t = x := if_pos rfl
theorem upd_ne (a : Nat → TA) {t u : Nat} (x : TA) (h : u ≠ t) : upd a t x u = a u := if_neg h

theorem setTh_same (s : State) (t : Nat) (x : Th) : setTh s t x t = x := if_pos rfl
theorem setTh_ne (s : State) {t u : Nat} (x : Th) (h : u ≠ t) : setTh s t x u = s.th u := if_neg h

/-- A property of what is known that a step does not change. -/
theorem upd_eq {α} (f : TA → α) (a : Nat → TA) (t : Nat) (x : TA) (h : f x = f (a t)) (u : Nat) :
    f (upd a t x u) = f (a u) := by
  unfold upd; split
  · rename_i e; rw [e, h]
  · rfl

theorem setTh_eq {α} (f : Th → α) (s : State) (t : Nat) (x : Th) (h : f x = f (s.th t)) (u : Nat) :
    f (setTh s t x u) = f (s.th u) := by
  unfold setTh; split
  · rename_i e; rw [e, h]
  · rfl

/-! ### Locks -/

theorem Lk.awake {n s d a} (h : Lk n s d a) {t : Nat} (hn : ∀ p k, (s.th t).todo ≠ .lock p :: k) :
    s.locks.wait t = none := by
  cases hw : s.locks.wait t with
  | none => rfl
  | some x =>
    obtain ⟨p, k, e, _⟩ := h.wait t x.1 x.2 hw
    exact absurd e (hn p k)

theorem Lk.excl {n s d a} (h : Lk n s d a) {t u p} (x : p ∈ (a t).H) (y : p ∈ (a u).H) : t = u := by
  have e1 := (h.locks.holder t (Act.accessOf p)).2 ((h.hold _ _).2 ⟨p, x, rfl⟩)
  have e2 := (h.locks.holder u (Act.accessOf p)).2 ((h.hold _ _).2 ⟨p, y, rfl⟩)
  rw [e1] at e2
  cases e2
  rfl

/-- A step that does not touch the partition locks. -/
theorem Lk.congr {n s d a s'} (h : Lk n s d a) {t : Nat} {y : TA} (hl : s'.locks = s.locks)
    (hn : ∀ p k, (s.th t).todo ≠ .lock p :: k) (hH : y.H = (a t).H)
    (hw : ∀ u, u ≠ t → s'.th u = s.th u) : Lk n s' d (upd a t y) where
  locks := by rw [hl]; exact h.locks
  hold := by
    intro u l
    rw [h.hold, upd_eq TA.H a t y hH]
  wait := by
    intro u l b e
    rw [hl] at e
    by_cases hu : u = t
    · subst hu; rw [h.awake hn] at e; cases e
    · rw [hw u hu]; exact h.wait u l b e

/-! ### Control -/

theorem erase_mem {R : List (Nat × Option Nat)} (hn : R.Nodup) (x y : Nat × Option Nat) :
    y ∈ R.erase x ↔ y ≠ x ∧ y ∈ R := hn.mem_erase_iff

theorem Ct.congr {s a R s'} (h : Ct s a R) {t : Nat} {y : TA} (hc : s'.control = s.control) (hH : y.H = (a t).H)
    (hp : y.pend = (a t).pend) (hw : y.wr = (a t).wr) : Ct s' (upd a t y) R where
  nodup := h.nodup
  len := by rw [hc]; exact h.len
  held := fun u p => by rw [upd_eq TA.H a t y hH]; exact h.held u p
  pend := fun u => by rw [upd_eq TA.pend a t y hp]; exact h.pend u
  writer := fun u => by rw [hc, upd_eq TA.wr a t y hw]; exact h.writer u
  alone := fun u => by rw [hc]; exact h.alone u

theorem Ct.unlock_ok {s a R} (h : Ct s a R) (x : Nat × Option Nat) (hx : x ∈ R) : ∃ m, s.control.readers = m + 1 ∧
    s.control.writer = none ∧ s.control.unlock = .ok { s.control with readers := m } := by
  have hlen := h.len
  have hpos := List.length_pos_of_mem hx
  have hwn : s.control.writer = none := by
    cases e : s.control.writer with
    | none => rfl
    | some t => have := h.alone t e; omega
  unfold Rwlock.unlock
  rw [hwn]
  cases hr : s.control.readers with
  | zero => omega
  | succ m => exact ⟨m, rfl, rfl, by simp [hwn]⟩

/-- Under the exclusive lock no thread has a partition. -/
theorem Ct.empty {s a R} (h : Ct s a R) {t : Nat} (hw : (a t).wr = true) (u : Nat) : (a u).H = [] := by
  cases e : (a u).H with
  | nil => rfl
  | cons p l =>
    have h1 := (h.held u p).2 (by rw [e]; simp)
    have h2 := h.alone t ((h.writer t).2 hw)
    have h3 := h.len
    have := List.length_pos_of_mem h1
    omega

/-! ### Versions -/

/-- A step that does not touch versions, log and what is known of them. -/
theorem Mm.congr {iv A B s a s'} (h : Mm iv A B s a) {t : Nat} {y : TA} (hm : s'.mem = s.mem) (hl : s'.log = s.log)
    (hu : ∀ u, (s'.th u).undo = (s.th u).undo) (hg : ∀ u, (s'.th u).gone = (s.th u).gone)
    (hH : y.H = (a t).H) (hD : y.D = (a t).D) (hgone : y.gone = (a t).gone) : Mm iv A B s' (upd a t y) := by
  have eH := upd_eq TA.H a t y hH
  have eD := upd_eq TA.D a t y hD
  have eG := upd_eq TA.gone a t y hgone
  constructor
  · intro u; rw [eH]; exact h.nodup u
  · intro u; rw [eH, eD]; exact h.sub u
  · intro u; rw [eD]; exact h.once u
  · intro u; rw [eD, hu, hl]; exact h.undo u
  · intro u; rw [eH]; exact h.acc u
  · intro u; rw [eH, eD, hm, hl]; exact h.held u
  · intro u; rw [eH, eG]; exact h.idle u
  · intro u p; rw [hg, eG, hm]; exact h.gone u p
  · intro k h1 h2
    rw [hm, hl]
    exact h.free k (fun u => by rw [← eH]; exact h1 u) (fun u => by rw [← hg]; exact h2 u)

/-! ### Steps -/

theorem may_next {iv n A B s d a R} (h : Inv iv n A B s d a R) {t x k} (ht : (s.th t).todo = x :: k) :
    may iv (A t) (B t) (a t) x := by
  have := h.chk t
  rw [ht] at this
  exact this.1

theorem chk_next {iv n A B s d a R} (h : Inv iv n A B s d a R) {t x k} (ht : (s.th t).todo = x :: k)
    {th' : Nat → Th} (h1 : (th' t).todo = k) (h2 : ∀ u, u ≠ t → th' u = s.th u) :
    ∀ u, check iv (A u) (B u) (upd a t (nextA (a t) x) u) (th' u).todo := by
  intro u
  by_cases e : u = t
  · subst e
    rw [upd_same, h1]
    have := h.chk u
    rw [ht] at this
    exact this.2
  · rw [upd_ne _ _ e, h2 u e]; exact h.chk u

/-- What a step has to give. -/
def Goes (iv n : Nat) (A B : Nat → Nat → Prop) (s : State) (t : Nat) (w : Bool) : Prop :=
  ∃ s', step iv s t w = .ok s' ∧ ∃ d a R, Inv iv n A B s' d a R

theorem step_shared {iv n A B s d a R} (h : Inv iv n A B s d a R) {t k} (ht : (s.th t).todo = .shared :: k)
    (w : Bool) : Goes iv n A B s t w := by
  have hm := may_next h ht
  unfold Goes step
  rw [ht]
  dsimp only
  cases hr : s.control.rdlock false with
  | none => exact ⟨s, rfl, d, a, R, h⟩
  | some c =>
    refine ⟨_, rfl, d, upd a t (nextA (a t) .shared), (t, none) :: R, ?_, ?_, ?_, ?_⟩
    · exact chk_next h ht (by exact congrArg Th.todo (setTh_same _ _ _)) (fun u hu => setTh_ne _ _ hu)
    · exact h.lk.congr rfl (by intro p k e; rw [ht] at e; cases e) rfl (fun u hu => setTh_ne _ _ hu)
    · unfold Rwlock.rdlock at hr
      split at hr
      · rename_i hcond
        cases hr
        have hnot : (t, none) ∉ R := by
          intro e; rw [h.ct.pend] at e; rw [hm.1] at e; cases e
        refine ⟨List.nodup_cons.2 ⟨hnot, h.ct.nodup⟩, ?_, ?_, ?_, ?_, ?_⟩
        · show s.control.readers + 1 = _; rw [h.ct.len]; rfl
        · intro u p
          rw [upd_eq TA.H a t (nextA (a t) .shared) rfl, ← h.ct.held]
          simp
        · intro u
          rw [List.mem_cons, h.ct.pend]
          by_cases e : u = t
          · subst e; rw [upd_same]; simp [nextA]
          · rw [upd_ne _ _ e]; simp [e]
        · intro u
          rw [upd_eq TA.wr a t (nextA (a t) .shared) rfl]
          exact h.ct.writer u
        · intro u e
          dsimp only at e
          rw [hcond.1] at e; cases e
      · cases hr
    · exact h.mm.congr rfl rfl (setTh_eq Th.undo _ _ _ rfl) (setTh_eq Th.gone _ _ _ rfl) rfl rfl rfl

theorem step_exclusive {iv n A B s d a R} (h : Inv iv n A B s d a R) {t k} (ht : (s.th t).todo = .exclusive :: k)
    (w : Bool) : Goes iv n A B s t w := by
  have hm := may_next h ht
  unfold Goes step
  rw [ht]
  dsimp only
  cases hr : s.control.wrlock t with
  | none => exact ⟨s, rfl, d, a, R, h⟩
  | some c =>
    refine ⟨_, rfl, d, upd a t (nextA (a t) .exclusive), R, ?_, ?_, ?_, ?_⟩
    · exact chk_next h ht (by exact congrArg Th.todo (setTh_same _ _ _)) (fun u hu => setTh_ne _ _ hu)
    · exact h.lk.congr rfl (by intro p k e; rw [ht] at e; cases e) rfl (fun u hu => setTh_ne _ _ hu)
    · unfold Rwlock.wrlock at hr
      split at hr
      · rename_i hcond
        cases hr
        refine ⟨h.ct.nodup, h.ct.len, ?_, ?_, ?_, ?_⟩
        · intro u p
          rw [upd_eq TA.H a t (nextA (a t) .exclusive) rfl, ← h.ct.held]
        · intro u
          rw [upd_eq TA.pend a t (nextA (a t) .exclusive) rfl, ← h.ct.pend]
        · intro u
          dsimp only
          by_cases e : u = t
          · subst e; rw [upd_same]; simp [nextA]
          · rw [upd_ne _ _ e, ← h.ct.writer, hcond.1]
            simp; exact fun e' => e e'.symm
        · intro u _
          exact hcond.2
      · cases hr
    · exact h.mm.congr rfl rfl (setTh_eq Th.undo _ _ _ rfl) (setTh_eq Th.gone _ _ _ rfl) rfl rfl rfl

theorem step_release {iv n A B s d a R} (h : Inv iv n A B s d a R) {t k} (ht : (s.th t).todo = .release :: k)
    (w : Bool) : Goes iv n A B s t w := by
  have hm := may_next h ht
  unfold Goes step
  rw [ht]
  dsimp only
  have eH : (nextA (a t) .release).H = (a t).H := by simp only [nextA]; split <;> rfl
  have eD : (nextA (a t) .release).D = (a t).D := by simp only [nextA]; split <;> rfl
  have eG : (nextA (a t) .release).gone = (a t).gone := by simp only [nextA]; split <;> rfl
  by_cases hwr : (a t).wr = true
  · have hw := (h.ct.writer t).2 hwr
    have hu : s.control.unlock = .ok { s.control with writer := none } := by unfold Rwlock.unlock; rw [hw]
    rw [hu, Res.bind_ok]
    have hn : nextA (a t) .release = { a t with wr := false } := by simp [nextA, hwr]
    refine ⟨_, rfl, d, upd a t (nextA (a t) .release), R, ?_, ?_, ?_, ?_⟩
    · exact chk_next h ht (by exact congrArg Th.todo (setTh_same _ _ _)) (fun u hu => setTh_ne _ _ hu)
    · exact h.lk.congr rfl (by intro p k e; rw [ht] at e; cases e) eH (fun u hu => setTh_ne _ _ hu)
    · refine ⟨h.ct.nodup, h.ct.len, ?_, ?_, ?_, ?_⟩
      · intro u p
        rw [upd_eq TA.H a t _ eH, ← h.ct.held]
      · intro u
        rw [upd_eq TA.pend a t _ (by rw [hn]), ← h.ct.pend]
      · intro u
        dsimp only
        by_cases e : u = t
        · subst e; rw [upd_same, hn]; simp
        · rw [upd_ne _ _ e, ← h.ct.writer, hw]
          simp; exact fun e' => e e'.symm
      · intro u e
        cases e
    · exact h.mm.congr rfl rfl (setTh_eq Th.undo _ _ _ rfl) (setTh_eq Th.gone _ _ _ rfl) eH eD eG
  · have hp : (a t).pend = true := by
      rcases hm with e | e
      · exact absurd e hwr
      · exact e
    have hx := (h.ct.pend t).2 hp
    obtain ⟨m, hr, hwn, hc⟩ := h.ct.unlock_ok _ hx
    rw [hc, Res.bind_ok]
    have hn : nextA (a t) .release = { a t with pend := false } := by simp [nextA, hwr]
    refine ⟨_, rfl, d, upd a t (nextA (a t) .release), R.erase (t, none), ?_, ?_, ?_, ?_⟩
    · exact chk_next h ht (by exact congrArg Th.todo (setTh_same _ _ _)) (fun u hu => setTh_ne _ _ hu)
    · exact h.lk.congr rfl (by intro p k e; rw [ht] at e; cases e) eH (fun u hu => setTh_ne _ _ hu)
    · refine ⟨h.ct.nodup.erase _, ?_, ?_, ?_, ?_, ?_⟩
      · have := h.ct.len
        rw [List.length_erase_of_mem hx]; show m = _; omega
      · intro u p
        rw [upd_eq TA.H a t _ eH, erase_mem h.ct.nodup, h.ct.held]
        simp
      · intro u
        rw [erase_mem h.ct.nodup, h.ct.pend]
        by_cases e : u = t
        · subst e; rw [upd_same, hn]; simp
        · rw [upd_ne _ _ e]; simp [e]
      · intro u
        rw [upd_eq TA.wr a t _ (by rw [hn])]
        exact h.ct.writer u
      · intro u e
        dsimp only at e
        rw [hwn] at e; cases e
    · exact h.mm.congr rfl rfl (setTh_eq Th.undo _ _ _ rfl) (setTh_eq Th.gone _ _ _ rfl) eH eD eG

theorem step_read {iv n A B s d a R} (h : Inv iv n A B s d a R) {t p k} (ht : (s.th t).todo = .read p :: k)
    (w : Bool) : Goes iv n A B s t w := by
  unfold Goes step
  rw [ht]
  refine ⟨_, rfl, d, upd a t (nextA (a t) (.read p)), R, ?_, ?_, ?_, ?_⟩
  · exact chk_next h ht (by exact congrArg Th.todo (setTh_same _ _ _)) (fun u hu => setTh_ne _ _ hu)
  · exact h.lk.congr rfl (by intro p k e; rw [ht] at e; cases e) rfl (fun u hu => setTh_ne _ _ hu)
  · exact h.ct.congr rfl rfl rfl rfl
  · exact h.mm.congr rfl rfl (setTh_eq Th.undo _ _ _ rfl) (setTh_eq Th.gone _ _ _ rfl) rfl rfl rfl

/-- Only writers hold partitions that others may drop: nobody has one that is removed. -/
theorem no_gone {iv n A B s d a R} (h : Inv iv n A B s d a R) (own : ∀ t u p, B t p → A u p → t = u)
    {t u p} (hp : p ∈ (a t).H) (hg : (s.th u).gone = some p) : False := by
  obtain ⟨h1, h2, _⟩ := h.mm.gone u p hg
  have := own u t p h2 (h.mm.acc t p hp)
  subst this
  rw [h.mm.idle _ h1] at hp
  simp at hp

theorem step_set {iv n A B s d a R} (h : Inv iv n A B s d a R) (own : ∀ t u p, B t p → A u p → t = u)
    {t e k} (ht : (s.th t).todo = .set e :: k) (w : Bool) : Goes iv n A B s t w := by
  have hm := may_next h ht
  unfold Goes step
  rw [ht]
  refine ⟨_, rfl, d, upd a t (nextA (a t) (.set e)), R, ?_, ?_, ?_, ?_⟩
  · exact chk_next h ht (by exact congrArg Th.todo (setTh_same _ _ _)) (fun u hu => setTh_ne _ _ hu)
  · exact h.lk.congr rfl (by intro p k e; rw [ht] at e; cases e) rfl (fun u hu => setTh_ne _ _ hu)
  · exact h.ct.congr rfl rfl rfl rfl
  · have eH := upd_eq TA.H a t (nextA (a t) (.set e)) rfl
    have eG := upd_eq TA.gone a t (nextA (a t) (.set e)) rfl
    have hne : ∀ k : Key, Dur.partOf iv k.1 ≠ part iv e → k ≠ e.pair := by
      intro k hk ee; subst ee; exact hk rfl
    have tg : ∀ u, (setTh s t { s.th t with todo := k, undo := (e.pair, s.mem e.pair) :: (s.th t).undo } u).gone =
        (s.th u).gone := setTh_eq Th.gone _ _ _ rfl
    constructor
    · intro u; rw [eH]; exact h.mm.nodup u
    · intro u x hx
      rw [eH]
      by_cases hu : u = t
      · subst hu
        rw [upd_same] at hx
        rcases List.mem_cons.1 hx with e1 | e1
        · rw [e1]; exact hm.1
        · exact h.mm.sub u x e1
      · rw [upd_ne _ _ hu] at hx; exact h.mm.sub u x hx
    · intro u
      by_cases hu : u = t
      · subst hu
        rw [upd_same]
        exact List.nodup_cons.2 ⟨hm.2, h.mm.once u⟩
      · rw [upd_ne _ _ hu]; exact h.mm.once u
    · intro u
      dsimp only
      by_cases hu : u = t
      · subst hu
        rw [upd_same, setTh_same]
        show (e.pair, s.mem e.pair) :: (s.th u).undo = (e.pair, _) :: _
        rw [h.mm.undo u, h.mm.held u e.pair hm.1]
        unfold over
        rw [List.find?_eq_none.2]
        intro x hx ee
        have : x.pair = e.pair := by simpa using ee
        apply hm.2
        refine List.mem_map.2 ⟨x, hx, ?_⟩
        unfold part
        rw [show x.id = e.id from congrArg Prod.fst this]
      · rw [upd_ne _ _ hu, setTh_ne _ _ hu]; exact h.mm.undo u
    · intro u; rw [eH]; exact h.mm.acc u
    · intro u j hj
      dsimp only
      rw [eH] at hj
      by_cases hu : u = t
      · subst hu
        rw [upd_same]
        unfold setMem over
        show _ = match (e :: (a u).D).find? _ with
          | some e => some e
          | none => _
        rw [List.find?_cons]
        by_cases ek : j = e.pair
        · rw [if_pos ek, ek]; simp
        · rw [if_neg ek]
          have : (e.pair == j) = false := by simp; exact fun x => ek x.symm
          rw [this]
          exact h.mm.held u j hj
      · rw [upd_ne _ _ hu]
        have : j ≠ e.pair := by
          apply hne
          intro ee
          rw [ee] at hj
          exact hu (h.lk.excl hj hm.1)
        unfold setMem
        rw [if_neg this]
        exact h.mm.held u j hj
    · intro u; rw [eH, eG]; exact h.mm.idle u
    · intro u p hp
      dsimp only at hp ⊢
      rw [tg] at hp
      rw [eG]
      obtain ⟨h1, h2, h3⟩ := h.mm.gone u p hp
      refine ⟨h1, h2, fun j hj => ?_⟩
      have : j ≠ e.pair := by
        apply hne
        intro ee
        rw [← hj, ee] at hp
        exact no_gone h own hm.1 hp
      unfold setMem
      rw [if_neg this]
      exact h3 j hj
    · intro j h1 h2
      dsimp only at h2 ⊢
      have h1' := fun u => by have := h1 u; rw [eH] at this; exact this
      have : j ≠ e.pair := by
        apply hne
        intro ee
        have := h1' t
        rw [ee] at this
        exact this hm.1
      unfold setMem
      rw [if_neg this]
      exact h.mm.free j h1' (fun u => by rw [← tg]; exact h2 u)

/-- Events of other partitions do not count. -/
theorem over_skip {iv : Nat} {D : List Event} {k : Key} {v : Option Event}
    (h : Dur.partOf iv k.1 ∉ D.map (part iv)) : over D k v = v := by
  unfold over
  rw [List.find?_eq_none.2]
  intro x hx ee
  have : x.pair = k := by simpa using ee
  apply h
  refine List.mem_map.2 ⟨x, hx, ?_⟩
  unfold part
  rw [show x.id = k.1 from congrArg Prod.fst this]

theorem version_over (iv : Nat) (k : Key) (n c : Nat) (D : List Event) (l : List Rec) :
    Dur.version iv k (l ++ [.write n c D.reverse]) = over D k (Dur.version iv k l) := by
  rw [version_write, lastOf_rev]; rfl

theorem step_log {iv n A B s d a R} (h : Inv iv n A B s d a R)
    {t es k} (ht : (s.th t).todo = .log es :: k) (w : Bool) : Goes iv n A B s t w := by
  have hm := may_next h ht
  unfold Goes step
  rw [ht]
  refine ⟨_, rfl, d, upd a t (nextA (a t) (.log es)), R, ?_, ?_, ?_, ?_⟩
  · exact chk_next h ht (by exact congrArg Th.todo (setTh_same _ _ _)) (fun u hu => setTh_ne _ _ hu)
  · exact h.lk.congr rfl (by intro p k e; rw [ht] at e; cases e) rfl (fun u hu => setTh_ne _ _ hu)
  · exact h.ct.congr rfl rfl rfl rfl
  · have eH := upd_eq TA.H a t (nextA (a t) (.log es)) rfl
    have eG := upd_eq TA.gone a t (nextA (a t) (.log es)) rfl
    have hes : es = (a t).D.reverse := hm.symm
    subst hes
    have hin : ∀ p, p ∈ (a t).D.map (part iv) → p ∈ (a t).H := by
      intro p hp
      obtain ⟨x, h1, h2⟩ := List.mem_map.1 hp
      rw [← h2]; exact h.mm.sub t x h1
    have hskip : ∀ k : Key, Dur.partOf iv k.1 ∉ (a t).H →
        Dur.version iv k (s.log ++ [.write (nextLsn s) (a t).D.reverse.length (a t).D.reverse]) = Dur.version iv k s.log := by
      intro k hk
      rw [version_over]
      exact over_skip (fun e => hk (hin _ e))
    have tg : ∀ u, (setTh s t { s.th t with todo := k, undo := [] } u).gone =
        (s.th u).gone := setTh_eq Th.gone _ _ _ rfl
    constructor
    · intro u; rw [eH]; exact h.mm.nodup u
    · intro u x hx
      rw [eH]
      by_cases hu : u = t
      · subst hu
        rw [upd_same] at hx
        cases hx
      · rw [upd_ne _ _ hu] at hx; exact h.mm.sub u x hx
    · intro u
      by_cases hu : u = t
      · subst hu
        rw [upd_same]
        exact List.nodup_nil
      · rw [upd_ne _ _ hu]; exact h.mm.once u
    · intro u
      dsimp only
      by_cases hu : u = t
      · subst hu
        rw [upd_same, setTh_same]
        rfl
      · rw [upd_ne _ _ hu, setTh_ne _ _ hu, h.mm.undo u]
        apply List.map_congr_left
        intro x hx
        rw [hskip]
        intro e
        exact hu (h.lk.excl (h.mm.sub u x hx) e)
    · intro u; rw [eH]; exact h.mm.acc u
    · intro u j hj
      dsimp only
      rw [eH] at hj
      by_cases hu : u = t
      · subst hu
        rw [upd_same, version_over, h.mm.held u j hj]
        rfl
      · rw [upd_ne _ _ hu, hskip, h.mm.held u j hj]
        intro e
        exact hu (h.lk.excl hj e)
    · intro u; rw [eH, eG]; exact h.mm.idle u
    · intro u p hp
      dsimp only at hp ⊢
      rw [tg] at hp
      rw [eG]
      exact h.mm.gone u p hp
    · intro j h1 h2
      dsimp only at h2 ⊢
      have h1' := fun u => by have := h1 u; rw [eH] at this; exact this
      rw [hskip _ (h1' t)]
      exact h.mm.free j h1' (fun u => by rw [← tg]; exact h2 u)

theorem step_undo {iv n A B s d a R} (h : Inv iv n A B s d a R) (own : ∀ t u p, B t p → A u p → t = u)
    {t k} (ht : (s.th t).todo = .undo :: k) (w : Bool) : Goes iv n A B s t w := by
  have hm := may_next h ht
  obtain ⟨e, D, hD⟩ : ∃ e D, (a t).D = e :: D := by
    cases hd : (a t).D with
    | nil => exact absurd hd hm
    | cons e D => exact ⟨e, D, rfl⟩
  have hundo := h.mm.undo t
  have honce := h.mm.once t
  rw [hD] at hundo honce
  rw [List.map_cons] at hundo honce
  have hn : (nextA (a t) .undo).D = D := by show (a t).D.tail = D; rw [hD]; rfl
  have hin : part iv e ∈ (a t).H := h.mm.sub t e (by rw [hD]; simp)
  unfold Goes step
  rw [ht]
  dsimp only
  rw [hundo]
  refine ⟨_, rfl, d, upd a t (nextA (a t) .undo), R, ?_, ?_, ?_, ?_⟩
  · exact chk_next h ht (by exact congrArg Th.todo (setTh_same _ _ _)) (fun u hu => setTh_ne _ _ hu)
  · exact h.lk.congr rfl (by intro p k e; rw [ht] at e; cases e) rfl (fun u hu => setTh_ne _ _ hu)
  · exact h.ct.congr rfl rfl rfl rfl
  · have eH := upd_eq TA.H a t (nextA (a t) .undo) rfl
    have eG := upd_eq TA.gone a t (nextA (a t) .undo) rfl
    have hne : ∀ k : Key, Dur.partOf iv k.1 ≠ part iv e → k ≠ e.pair := by
      intro k hk ee; subst ee; exact hk rfl
    have tg : ∀ (x : List (Key × Option Event)) u, (setTh s t { s.th t with todo := k, undo := x } u).gone =
        (s.th u).gone := fun x => setTh_eq Th.gone _ _ _ rfl
    constructor
    · intro u; rw [eH]; exact h.mm.nodup u
    · intro u x hx
      rw [eH]
      by_cases hu : u = t
      · subst hu
        rw [upd_same, hn] at hx
        exact h.mm.sub u x (by rw [hD]; exact List.mem_cons_of_mem _ hx)
      · rw [upd_ne _ _ hu] at hx; exact h.mm.sub u x hx
    · intro u
      by_cases hu : u = t
      · subst hu
        rw [upd_same, hn]
        exact (List.nodup_cons.1 honce).2
      · rw [upd_ne _ _ hu]; exact h.mm.once u
    · intro u
      dsimp only
      by_cases hu : u = t
      · subst hu
        rw [upd_same, setTh_same, hn]
      · rw [upd_ne _ _ hu, setTh_ne _ _ hu]; exact h.mm.undo u
    · intro u; rw [eH]; exact h.mm.acc u
    · intro u j hj
      dsimp only
      rw [eH] at hj
      by_cases hu : u = t
      · subst hu
        rw [upd_same, hn]
        unfold setMem
        by_cases ek : j = e.pair
        · rw [if_pos ek, ek, over_skip (iv := iv)]
          exact (List.nodup_cons.1 honce).1
        · rw [if_neg ek, h.mm.held u j hj, hD]
          unfold over
          rw [List.find?_cons]
          have : (e.pair == j) = false := by simp; exact fun x => ek x.symm
          rw [this]
      · rw [upd_ne _ _ hu]
        have : j ≠ e.pair := by
          apply hne
          intro ee
          rw [ee] at hj
          exact hu (h.lk.excl hj hin)
        unfold setMem
        rw [if_neg this]
        exact h.mm.held u j hj
    · intro u; rw [eH, eG]; exact h.mm.idle u
    · intro u p hp
      dsimp only at hp ⊢
      rw [tg] at hp
      rw [eG]
      obtain ⟨h1, h2, h3⟩ := h.mm.gone u p hp
      refine ⟨h1, h2, fun j hj => ?_⟩
      have : j ≠ e.pair := by
        apply hne
        intro ee
        rw [← hj, ee] at hp
        exact no_gone h own hin hp
      unfold setMem
      rw [if_neg this]
      exact h3 j hj
    · intro j h1 h2
      dsimp only at h2 ⊢
      have h1' := fun u => by have := h1 u; rw [eH] at this; exact this
      have : j ≠ e.pair := by
        apply hne
        intro ee
        have := h1' t
        rw [ee] at this
        exact this hin
      unfold setMem
      rw [if_neg this]
      exact h.mm.free j h1' (fun u => by rw [← tg]; exact h2 u)

theorem step_remove {iv n A B s d a R} (h : Inv iv n A B s d a R)
    {t p k} (ht : (s.th t).todo = .remove p :: k) (w : Bool) : Goes iv n A B s t w := by
  have hm := may_next h ht
  have hno := h.ct.empty hm.1
  unfold Goes step
  rw [ht]
  dsimp only
  have eH := upd_eq TA.H a t (nextA (a t) (.remove p)) rfl
  have eD := upd_eq TA.D a t (nextA (a t) (.remove p)) rfl
  have hD : ∀ u, (a u).D = [] := by
    intro u
    cases e : (a u).D with
    | nil => rfl
    | cons x l =>
      have := h.mm.sub u x (by rw [e]; simp)
      rw [hno u] at this; simp at this
  split
  · refine ⟨_, rfl, d, upd a t (nextA (a t) (.remove p)), R, ?_, ?_, ?_, ?_⟩
    · exact chk_next h ht (by exact congrArg Th.todo (setTh_same _ _ _)) (fun u hu => setTh_ne _ _ hu)
    · exact h.lk.congr rfl (by intro p k e; rw [ht] at e; cases e) rfl (fun u hu => setTh_ne _ _ hu)
    · exact h.ct.congr rfl rfl rfl rfl
    · have tu : ∀ u, (setTh s t { s.th t with todo := k, gone := some p } u).undo =
          (s.th u).undo := setTh_eq Th.undo _ _ _ rfl
      constructor
      · intro u; rw [eH]; exact h.mm.nodup u
      · intro u; rw [eH, eD]; exact h.mm.sub u
      · intro u; rw [eD]; exact h.mm.once u
      · intro u; dsimp only; rw [eD, tu]; exact h.mm.undo u
      · intro u; rw [eH]; exact h.mm.acc u
      · intro u j hj; rw [eH, hno u] at hj; simp at hj
      · intro u _; rw [eH]; exact hno u
      · intro u q hq
        dsimp only at hq ⊢
        by_cases hu : u = t
        · subst hu
          rw [setTh_same] at hq
          cases hq
          rw [upd_same]
          exact ⟨rfl, hm.2.2, fun j hj => if_pos hj⟩
        · rw [setTh_ne _ _ hu] at hq
          rw [upd_ne _ _ hu]
          obtain ⟨h1, h2, h3⟩ := h.mm.gone u q hq
          refine ⟨h1, h2, fun j hj => ?_⟩
          split
          · rfl
          · exact h3 j hj
      · intro j h1 h2
        dsimp only at h2 ⊢
        have h3 : Dur.partOf iv j.1 ≠ p := by
          intro e
          have := h2 t
          rw [setTh_same, e] at this
          exact this rfl
        rw [if_neg h3]
        refine h.mm.free j (fun u => by rw [hno u]; simp) ?_
        intro u
        by_cases hu : u = t
        · subst hu
          intro e
          have := (h.mm.gone u _ e).1
          rw [hm.2.1] at this; cases this
        · have := h2 u
          rw [setTh_ne _ _ hu] at this
          exact this
  · refine ⟨_, rfl, d, upd a t (nextA (a t) (.remove p)), R, ?_, ?_, ?_, ?_⟩
    · exact chk_next h ht (by exact congrArg Th.todo (setTh_same _ _ _)) (fun u hu => setTh_ne _ _ hu)
    · exact h.lk.congr rfl (by intro p k e; rw [ht] at e; cases e) rfl (fun u hu => setTh_ne _ _ hu)
    · exact h.ct.congr rfl rfl rfl rfl
    · have tu : ∀ u, (done s t k u).undo = (s.th u).undo := setTh_eq Th.undo _ _ _ rfl
      have tg : ∀ u, (done s t k u).gone = (s.th u).gone := setTh_eq Th.gone _ _ _ rfl
      constructor
      · intro u; rw [eH]; exact h.mm.nodup u
      · intro u; rw [eH, eD]; exact h.mm.sub u
      · intro u; rw [eD]; exact h.mm.once u
      · intro u; dsimp only; rw [eD, tu]; exact h.mm.undo u
      · intro u; rw [eH]; exact h.mm.acc u
      · intro u j hj; rw [eH, hno u] at hj; simp at hj
      · intro u _; rw [eH]; exact hno u
      · intro u q hq
        dsimp only at hq ⊢
        rw [tg] at hq
        obtain ⟨h1, h2, h3⟩ := h.mm.gone u q hq
        refine ⟨?_, h2, h3⟩
        unfold upd; split
        · rfl
        · exact h1
      · intro j h1 h2
        dsimp only at h2 ⊢
        exact h.mm.free j (fun u => by rw [hno u]; simp) (fun u => by rw [← tg]; exact h2 u)

theorem step_logDrop {iv n A B s d a R} (h : Inv iv n A B s d a R) (own : ∀ t u p, B t p → A u p → t = u)
    {t k} (ht : (s.th t).todo = .logDrop :: k) (w : Bool) : Goes iv n A B s t w := by
  unfold Goes step
  rw [ht]
  dsimp only
  have eH := upd_eq TA.H a t (nextA (a t) .logDrop) rfl
  have eD := upd_eq TA.D a t (nextA (a t) .logDrop) rfl
  cases hg : (s.th t).gone with
  | none =>
    refine ⟨_, rfl, d, upd a t (nextA (a t) .logDrop), R, ?_, ?_, ?_, ?_⟩
    · exact chk_next h ht (by exact congrArg Th.todo (setTh_same _ _ _)) (fun u hu => setTh_ne _ _ hu)
    · exact h.lk.congr rfl (by intro p k e; rw [ht] at e; cases e) rfl (fun u hu => setTh_ne _ _ hu)
    · exact h.ct.congr rfl rfl rfl rfl
    · have tu : ∀ u, (done s t k u).undo = (s.th u).undo := setTh_eq Th.undo _ _ _ rfl
      have tg : ∀ u, (done s t k u).gone = (s.th u).gone := setTh_eq Th.gone _ _ _ rfl
      constructor
      · intro u; rw [eH]; exact h.mm.nodup u
      · intro u; rw [eH, eD]; exact h.mm.sub u
      · intro u; rw [eD]; exact h.mm.once u
      · intro u; dsimp only; rw [eD, tu]; exact h.mm.undo u
      · intro u; rw [eH]; exact h.mm.acc u
      · intro u; rw [eH, eD]; exact h.mm.held u
      · intro u hu
        rw [eH]
        by_cases e : u = t
        · subst e; rw [upd_same] at hu; cases hu
        · rw [upd_ne _ _ e] at hu; exact h.mm.idle u hu
      · intro u q hq
        dsimp only at hq ⊢
        rw [tg] at hq
        obtain ⟨h1, h2, h3⟩ := h.mm.gone u q hq
        refine ⟨?_, h2, h3⟩
        by_cases e : u = t
        · subst e; rw [hg] at hq; cases hq
        · rw [upd_ne _ _ e]; exact h1
      · intro j h1 h2
        dsimp only at h2 ⊢
        exact h.mm.free j (fun u => by rw [← eH]; exact h1 u) (fun u => by rw [← tg]; exact h2 u)
  | some p =>
    obtain ⟨g1, g2, g3⟩ := h.mm.gone t p hg
    refine ⟨_, rfl, d, upd a t (nextA (a t) .logDrop), R, ?_, ?_, ?_, ?_⟩
    · exact chk_next h ht (by exact congrArg Th.todo (setTh_same _ _ _)) (fun u hu => setTh_ne _ _ hu)
    · exact h.lk.congr rfl (by intro p k e; rw [ht] at e; cases e) rfl (fun u hu => setTh_ne _ _ hu)
    · exact h.ct.congr rfl rfl rfl rfl
    · have tu : ∀ u, (setTh s t { s.th t with todo := k, gone := none } u).undo =
          (s.th u).undo := setTh_eq Th.undo _ _ _ rfl
      have hskip : ∀ k : Key, Dur.partOf iv k.1 ≠ p →
          Dur.version iv k (s.log ++ [.drop (nextLsn s) p]) = Dur.version iv k s.log := by
        intro k hk
        rw [version_drop, if_neg (fun e => hk e.symm)]
      have hnp : ∀ u, p ∉ (a u).H := fun u hu => no_gone h own hu hg
      constructor
      · intro u; rw [eH]; exact h.mm.nodup u
      · intro u; rw [eH, eD]; exact h.mm.sub u
      · intro u; rw [eD]; exact h.mm.once u
      · intro u
        dsimp only
        rw [eD, tu, h.mm.undo u]
        apply List.map_congr_left
        intro x hx
        rw [hskip]
        intro e
        have := h.mm.sub u x hx
        unfold part at this
        rw [show x.id = x.pair.1 from rfl, e] at this
        exact hnp u this
      · intro u; rw [eH]; exact h.mm.acc u
      · intro u j hj
        dsimp only
        rw [eH] at hj
        rw [eD, hskip]
        · exact h.mm.held u j hj
        · intro e; rw [e] at hj; exact hnp u hj
      · intro u hu
        rw [eH]
        by_cases e : u = t
        · subst e; rw [upd_same] at hu; cases hu
        · rw [upd_ne _ _ e] at hu; exact h.mm.idle u hu
      · intro u q hq
        dsimp only at hq ⊢
        by_cases e : u = t
        · subst e; rw [setTh_same] at hq; cases hq
        · rw [setTh_ne _ _ e] at hq
          rw [upd_ne _ _ e]; exact h.mm.gone u q hq
      · intro j h1 h2
        dsimp only at h2 ⊢
        by_cases e : Dur.partOf iv j.1 = p
        · rw [version_drop, if_pos e.symm]
          exact g3 j e
        · rw [hskip j e]
          refine h.mm.free j (fun u => by rw [← eH]; exact h1 u) ?_
          intro u
          by_cases hu : u = t
          · subst hu
            rw [hg]
            intro ee; cases ee; exact e rfl
          · have := h2 u
            rw [setTh_ne _ _ hu] at this
            exact this

theorem attempt_wait (l : Locks) (t p u : Nat) : (l.attempt t p).1.wait u =
    if u = t then (if (l.attempt t p).2 then none else some (p, false)) else l.wait u := by
  unfold Locks.attempt
  split <;> simp [Locks.setWait]

theorem step_lock {iv n A B s d a R} (h : Inv iv n A B s d a R) (own : ∀ t u p, B t p → A u p → t = u)
    {t p k} (ht : (s.th t).todo = .lock p :: k) (htn : t < n) (w : Bool) : Goes iv n A B s t w := by
  have hm := may_next h ht
  have hd : d t (Act.accessOf p) = 0 := by
    have h1 := h.lk.locks.atmost t (Act.accessOf p)
    have : d t (Act.accessOf p) ≠ 1 := by
      intro e
      obtain ⟨q, h2, h3⟩ := (h.lk.hold _ _).1 e
      rw [access_inj h3] at hm
      exact hm.2.1 h2
    dsimp only at h1
    omega
  have hno : (s.locks.lock (Act.accessOf p)).locker ≠ some t := by
    intro e
    have h1 := (h.lk.locks.holder t (Act.accessOf p)).1 e
    dsimp only at h1
    rw [hd] at h1; cases h1
  have main : ∀ (l0 : Locks) (r : Locks × Bool), r = (l0.attempt t (Act.accessOf p)) →
      (∀ u, u ≠ t → l0.wait u = s.locks.wait u) →
      C31.Inv n ⟨r.1, if r.2 then C31.bump d t (Act.accessOf p) (· + 1) else d⟩ →
      ∃ d a R, Inv iv n A B { s with
        locks := r.1,
        known := fun q => q == p || s.known q,
        th := if r.2 then done s t k else s.th } d a R := by
    intro l0 r hr hl0 hinv
    have hwait : ∀ u, r.1.wait u = if u = t then (if r.2 then none else some (Act.accessOf p, false)) else l0.wait u := by
      intro u; rw [hr]; exact attempt_wait _ _ _ _
    cases hr2 : r.2 with
    | true =>
      rw [hr2, if_pos rfl] at hinv
      simp only [if_true]
      -- nobody had it before
      have hfree : ∀ u, p ∉ (a u).H := by
        intro u hu
        have e1 := (h.lk.hold u (Act.accessOf p)).2 ⟨p, hu, rfl⟩
        by_cases hut : u = t
        · subst hut; exact hm.2.1 hu
        · have i1 := (hinv.holder u (Act.accessOf p)).2 (by
            show C31.bump d t _ _ u _ = 1
            unfold C31.bump
            rw [if_neg (fun x => hut x.1)]; exact e1)
          have i2 := (hinv.holder t (Act.accessOf p)).2 (by
            show C31.bump d t _ _ t _ = 1
            unfold C31.bump
            rw [if_pos ⟨rfl, rfl⟩, hd])
          dsimp only at i1 i2
          rw [i1] at i2
          cases i2
          exact hut rfl
      have hng : ∀ u, (s.th u).gone ≠ some p := by
        intro u hu
        obtain ⟨h1, h2, _⟩ := h.mm.gone u p hu
        have := own u t p h2 hm.2.2.1
        subst this
        rw [hm.2.2.2] at h1; cases h1
      refine ⟨C31.bump d t (Act.accessOf p) (· + 1), upd a t (nextA (a t) (.lock p)), (t, some p) :: R.erase (t, none), ?_, ?_, ?_, ?_⟩
      · exact chk_next h ht (by exact congrArg Th.todo (setTh_same _ _ _)) (fun u hu => setTh_ne _ _ hu)
      · refine ⟨hinv, ?_, ?_⟩
        · intro u l
          unfold C31.bump
          by_cases hc : u = t ∧ l = Act.accessOf p
          · rw [if_pos hc, hc.1, hc.2, hd, upd_same]
            simp only [true_iff, Nat.zero_add]
            exact ⟨p, List.mem_cons_self, rfl⟩
          · rw [if_neg hc, h.lk.hold]
            by_cases hu : u = t
            · subst hu
              rw [upd_same]
              constructor
              · rintro ⟨q, h1, h2⟩; exact ⟨q, List.mem_cons_of_mem _ h1, h2⟩
              · rintro ⟨q, h1, h2⟩
                rcases List.mem_cons.1 h1 with e | e
                · rw [e] at h2; exact absurd ⟨rfl, h2⟩ hc
                · exact ⟨q, e, h2⟩
            · rw [upd_ne _ _ hu]
        · intro u l b e
          dsimp only at e
          rw [hwait, hr2] at e
          by_cases eu : u = t
          · rw [if_pos eu] at e; cases e
          · rw [if_neg eu, hl0 u eu] at e
            have := h.lk.wait u l b e
            rw [← setTh_ne s { s.th t with todo := k } eu] at this
            exact this
      · have hx := (h.ct.pend t).2 hm.1
        have hnot : (t, some p) ∉ R.erase (t, none) := by
          intro e
          rw [erase_mem h.ct.nodup] at e
          exact hm.2.1 ((h.ct.held t p).1 e.2)
        have hpos := List.length_pos_of_mem hx
        refine ⟨List.nodup_cons.2 ⟨hnot, h.ct.nodup.erase _⟩, ?_, ?_, ?_, ?_, ?_⟩
        · rw [List.length_cons, List.length_erase_of_mem hx]
          have := h.ct.len
          dsimp only
          omega
        · intro u q
          rw [List.mem_cons, erase_mem h.ct.nodup, h.ct.held]
          by_cases hu : u = t
          · subst hu; rw [upd_same]; simp [nextA]
          · rw [upd_ne _ _ hu]; simp [hu]
        · intro u
          rw [List.mem_cons, erase_mem h.ct.nodup, h.ct.pend]
          by_cases hu : u = t
          · subst hu; rw [upd_same]; simp [nextA]
          · rw [upd_ne _ _ hu]; simp [hu]
        · intro u
          rw [upd_eq TA.wr a t (nextA (a t) (.lock p)) rfl]
          exact h.ct.writer u
        · exact h.ct.alone
      · have eD := upd_eq TA.D a t (nextA (a t) (.lock p)) rfl
        have eG := upd_eq TA.gone a t (nextA (a t) (.lock p)) rfl
        have tu : ∀ u, (done s t k u).undo = (s.th u).undo := setTh_eq Th.undo _ _ _ rfl
        have tg : ∀ u, (done s t k u).gone = (s.th u).gone := setTh_eq Th.gone _ _ _ rfl
        have hH : ∀ u q, q ∈ (upd a t (nextA (a t) (.lock p)) u).H ↔ q ∈ (a u).H ∨ (u = t ∧ q = p) := by
          intro u q
          by_cases hu : u = t
          · subst hu; rw [upd_same]; simp [nextA, or_comm]
          · rw [upd_ne _ _ hu]; simp [hu]
        constructor
        · intro u
          by_cases hu : u = t
          · subst hu
            rw [upd_same]
            exact List.nodup_cons.2 ⟨hm.2.1, h.mm.nodup u⟩
          · rw [upd_ne _ _ hu]; exact h.mm.nodup u
        · intro u x hx
          rw [eD] at hx
          rw [hH]
          exact .inl (h.mm.sub u x hx)
        · intro u; rw [eD]; exact h.mm.once u
        · intro u; dsimp only; rw [eD, tu]; exact h.mm.undo u
        · intro u q hq
          rcases (hH u q).1 hq with e | ⟨e1, e2⟩
          · exact h.mm.acc u q e
          · rw [e1, e2]; exact hm.2.2.1
        · intro u j hj
          dsimp only
          rw [eD]
          rcases (hH u _).1 hj with e | ⟨e1, e2⟩
          · exact h.mm.held u j e
          · rw [h.mm.free j (fun v => by rw [e2]; exact hfree v) (fun v => by rw [e2]; exact hng v), over_skip (iv := iv)]
            rw [e2, e1]
            intro e
            obtain ⟨x, h1, h2⟩ := List.mem_map.1 e
            have := h.mm.sub t x h1
            rw [h2] at this
            exact hfree t this
        · intro u hu
          rw [eG] at hu
          by_cases e : u = t
          · subst e; rw [hm.2.2.2] at hu; cases hu
          · rw [upd_ne _ _ e]; exact h.mm.idle u hu
        · intro u q hq
          dsimp only at hq ⊢
          rw [tg] at hq
          rw [eG]
          exact h.mm.gone u q hq
        · intro j h1 h2
          dsimp only at h2 ⊢
          exact h.mm.free j (fun u e => h1 u ((hH u _).2 (.inl e))) (fun u => by rw [← tg]; exact h2 u)
    | false =>
      rw [hr2] at hinv
      simp only [Bool.false_eq_true, if_false] at hinv ⊢
      refine ⟨d, a, R, h.chk, ⟨hinv, h.lk.hold, ?_⟩, ?_, ?_⟩
      · intro u l b' e
        dsimp only at e ⊢
        rw [hwait, hr2] at e
        by_cases eu : u = t
        · subst eu
          rw [if_pos rfl] at e
          cases e
          exact ⟨p, k, ht, rfl⟩
        · rw [if_neg eu, hl0 u eu] at e
          exact h.lk.wait u l b' e
      · exact ⟨h.ct.nodup, h.ct.len, h.ct.held, h.ct.pend, h.ct.writer, h.ct.alone⟩
      · exact ⟨h.mm.nodup, h.mm.sub, h.mm.once, h.mm.undo, h.mm.acc, h.mm.held, h.mm.idle, h.mm.gone, h.mm.free⟩
  unfold Goes step
  rw [ht]
  dsimp only
  cases hw : s.locks.wait t with
  | some x =>
    obtain ⟨l, woken⟩ := x
    dsimp only
    split
    · refine ⟨_, rfl, ?_⟩
      obtain ⟨p', k', e1, e3⟩ := h.lk.wait t l woken hw
      rw [ht] at e1
      cases e1
      subst e3
      refine main ⟨s.locks.setLock (Act.accessOf p) { s.locks.lock (Act.accessOf p) with
          pending := (s.locks.lock (Act.accessOf p)).pending - 1 }, s.locks.wait⟩ _ ?_ ?_ ?_
      · unfold Locks.wake; rw [hw]
      · intro u _; rfl
      · refine C31.inv_step h.lk.locks (.wake t) ?_
        simp only [C31.step, hw]
    · exact ⟨s, rfl, d, a, R, h⟩
  | none =>
    dsimp only
    refine ⟨_, rfl, ?_⟩
    refine main s.locks _ ?_ (fun _ _ => rfl) ?_
    · unfold Locks.lockage_lock; rw [if_neg hno]
    · refine C31.inv_step h.lk.locks (.lock t (Act.accessOf p)) ?_
      simp only [C31.step, hw, hd, htn, and_self, or_true, if_true]

theorem unlock_wait (l : Locks) (p u : Nat) : ∀ x b, (l.lockage_unlock p).wait u = some (x, b) →
    ∃ b, l.wait u = some (x, b) := by
  intro x b e
  unfold Locks.lockage_unlock at e
  dsimp only at e
  split at e
  · exact ⟨b, e⟩
  · split at e
    · unfold Locks.broadcast at e
      dsimp only at e
      cases hw : l.wait u with
      | none => rw [hw] at e; cases e
      | some y =>
        rw [hw] at e
        cases e
        exact ⟨y.2, rfl⟩
    · exact ⟨b, e⟩

theorem step_unlock {iv n A B s d a R} (h : Inv iv n A B s d a R) {t p k}
    (ht : (s.th t).todo = .unlock p :: k) (w : Bool) : Goes iv n A B s t w := by
  have hm := may_next h ht
  have hwait : s.locks.wait t = none := h.lk.awake (by intro p k e; rw [ht] at e; cases e)
  have hd : d t (Act.accessOf p) = 1 := (h.lk.hold _ _).2 ⟨p, hm.1, rfl⟩
  unfold Goes step
  rw [ht]
  have hH : ∀ u q, q ∈ (upd a t (nextA (a t) (.unlock p)) u).H ↔ q ∈ (a u).H ∧ ¬ (u = t ∧ q = p) := by
    intro u q
    by_cases hu : u = t
    · subst hu; rw [upd_same]
      show q ∈ (a u).H.erase p ↔ _
      rw [(h.mm.nodup u).mem_erase_iff]
      simp [and_comm]
    · rw [upd_ne _ _ hu]; simp [hu]
  refine ⟨_, rfl, C31.bump d t (Act.accessOf p) (· - 1), upd a t (nextA (a t) (.unlock p)),
    (t, none) :: R.erase (t, some p), ?_, ?_, ?_, ?_⟩
  · exact chk_next h ht (by exact congrArg Th.todo (setTh_same _ _ _)) (fun u hu => setTh_ne _ _ hu)
  · refine ⟨?_, ?_, ?_⟩
    · refine C31.inv_step h.lk.locks (.unlock t (Act.accessOf p)) ?_
      simp only [C31.step, hwait, hd]
      rfl
    · intro u l
      unfold C31.bump
      by_cases hc : u = t ∧ l = Act.accessOf p
      · rw [if_pos hc, hc.1, hc.2, hd]
        simp only [Nat.sub_self, Nat.zero_ne_one, false_iff, not_exists, not_and]
        intro q hq e
        have := access_inj e
        subst this
        exact ((hH t p).1 hq).2 ⟨rfl, rfl⟩
      · rw [if_neg hc, h.lk.hold]
        constructor
        · rintro ⟨q, h1, h2⟩
          refine ⟨q, (hH u q).2 ⟨h1, ?_⟩, h2⟩
          rintro ⟨e1, e2⟩
          rw [e2] at h2
          exact hc ⟨e1, h2⟩
        · rintro ⟨q, h1, h2⟩
          exact ⟨q, ((hH u q).1 h1).1, h2⟩
    · intro u l b e
      dsimp only at e
      obtain ⟨b', e'⟩ := unlock_wait _ _ _ _ _ e
      by_cases hu : u = t
      · subst hu; rw [hwait] at e'; cases e'
      · have := h.lk.wait u l b' e'
        rw [← setTh_ne s { s.th t with todo := k } hu] at this
        exact this
  · have hx := (h.ct.held t p).2 hm.1
    have hnot : (t, none) ∉ R.erase (t, some p) := by
      intro e
      rw [erase_mem h.ct.nodup, h.ct.pend, hm.2.1] at e
      cases e.2
    have hpos := List.length_pos_of_mem hx
    refine ⟨List.nodup_cons.2 ⟨hnot, h.ct.nodup.erase _⟩, ?_, ?_, ?_, ?_, ?_⟩
    · rw [List.length_cons, List.length_erase_of_mem hx]
      have := h.ct.len
      dsimp only
      omega
    · intro u q
      rw [List.mem_cons, erase_mem h.ct.nodup, h.ct.held, hH]
      simp [and_comm]
    · intro u
      rw [List.mem_cons, erase_mem h.ct.nodup, h.ct.pend]
      by_cases hu : u = t
      · subst hu; rw [upd_same]; simp [nextA]
      · rw [upd_ne _ _ hu]; simp [hu]
    · intro u
      rw [upd_eq TA.wr a t (nextA (a t) (.unlock p)) rfl]
      exact h.ct.writer u
    · exact h.ct.alone
  · have eD := upd_eq TA.D a t (nextA (a t) (.unlock p)) rfl
    have eG := upd_eq TA.gone a t (nextA (a t) (.unlock p)) rfl
    have tu : ∀ u, (done s t k u).undo = (s.th u).undo := setTh_eq Th.undo _ _ _ rfl
    have tg : ∀ u, (done s t k u).gone = (s.th u).gone := setTh_eq Th.gone _ _ _ rfl
    constructor
    · intro u
      by_cases hu : u = t
      · subst hu
        rw [upd_same]
        exact (h.mm.nodup u).erase _
      · rw [upd_ne _ _ hu]; exact h.mm.nodup u
    · intro u x hx
      rw [eD] at hx
      rw [hH]
      refine ⟨h.mm.sub u x hx, ?_⟩
      rintro ⟨e1, e2⟩
      subst e1
      exact hm.2.2 (List.mem_map.2 ⟨x, hx, e2⟩)
    · intro u; rw [eD]; exact h.mm.once u
    · intro u; dsimp only; rw [eD, tu]; exact h.mm.undo u
    · intro u q hq
      exact h.mm.acc u q ((hH u q).1 hq).1
    · intro u j hj
      dsimp only
      rw [eD]
      exact h.mm.held u j ((hH u _).1 hj).1
    · intro u hu
      rw [eG] at hu
      by_cases e : u = t
      · subst e
        have := h.mm.idle u hu
        have h1 := hm.1
        rw [this] at h1
        cases h1
      · rw [upd_ne _ _ e]; exact h.mm.idle u hu
    · intro u q hq
      dsimp only at hq ⊢
      rw [tg] at hq
      rw [eG]
      exact h.mm.gone u q hq
    · intro j h1 h2
      dsimp only at h2 ⊢
      by_cases e : Dur.partOf iv j.1 = p
      · rw [h.mm.held t j (by rw [e]; exact hm.1), over_skip (iv := iv)]
        rw [e]; exact hm.2.2
      · exact h.mm.free j (fun u x => h1 u ((hH u _).2 ⟨x, fun y => e y.2⟩)) (fun u => by rw [← tg]; exact h2 u)

theorem step_inv {iv n A B s d a R} (h : Inv iv n A B s d a R) (own : ∀ t u p, B t p → A u p → t = u)
    {t : Nat} (htn : t < n) (w : Bool) : Goes iv n A B s t w := by
  cases ht : (s.th t).todo with
  | nil =>
    refine ⟨s, ?_, d, a, R, h⟩
    simp only [step, ht]
  | cons x k =>
    cases x with
    | shared => exact step_shared h ht w
    | exclusive => exact step_exclusive h ht w
    | release => exact step_release h ht w
    | lock p => exact step_lock h own ht htn w
    | unlock p => exact step_unlock h ht w
    | set e => exact step_set h own ht w
    | log es => exact step_log h ht w
    | undo => exact step_undo h own ht w
    | read p => exact step_read h ht w
    | remove p => exact step_remove h ht w
    | logDrop => exact step_logDrop h own ht w

theorem run_inv {iv n A B} (own : ∀ t u p, B t p → A u p → t = u) : ∀ (sched : List (Nat × Bool)) s,
    (∀ x ∈ sched, x.1 < n) → (∃ d a R, Inv iv n A B s d a R) →
    ∃ s', run iv s sched = .ok s' ∧ ∃ d a R, Inv iv n A B s' d a R := by
  intro sched
  induction sched with
  | nil => intro s _ h; exact ⟨s, rfl, h⟩
  | cons x l ih =>
    intro s hn ⟨d, a, R, h⟩
    obtain ⟨s', h1, h2⟩ := step_inv h own (hn x (by simp)) x.2
    obtain ⟨s'', h3, h4⟩ := ih s' (fun y hy => hn y (List.mem_cons_of_mem _ hy)) h2
    refine ⟨s'', ?_, h4⟩
    show (step iv s x.1 x.2).bind _ = _
    rw [h1, Res.bind_ok, h3]

theorem inv_sound {iv n A B s d a R} (h : Inv iv n A B s d a R) (own : ∀ t u p, B t p → A u p → t = u) :
    Sound iv s where
  read := by
    intro t p l ht k hk
    have hm := may_next h ht
    unfold Agrees
    rw [h.mm.held t k (by rw [hk]; exact hm.1), hm.2]
    rfl
  fin := by
    intro hall k
    have hidle : ∀ t, a t = idle := by
      intro t
      have := h.chk t
      rw [hall t] at this
      exact this
    refine h.mm.free k (fun t => by rw [hidle]; simp [idle]) ?_
    intro t e
    have := (h.mm.gone t _ e).1
    rw [hidle] at this; cases this

/-! ### The programs -/

/-- The steps so far lead from `a` to `b`. -/
def leads (iv : Nat) (A B : Nat → Prop) : TA → List Instr → TA → Prop
  | a, [], b => a = b
  | a, x :: k, b => may iv A B a x ∧ leads iv A B (nextA a x) k b

theorem leads_append {iv A B} : ∀ (x y : List Instr) (a b c : TA), leads iv A B a x b → leads iv A B b y c →
    leads iv A B a (x ++ y) c := by
  intro x
  induction x with
  | nil => intro y a b c h1 h2; cases h1; exact h2
  | cons i x ih => intro y a b c h1 h2; exact ⟨h1.1, ih y _ b c h1.2 h2⟩

theorem check_leads {iv A B} : ∀ (x y : List Instr) (a b : TA), leads iv A B a x b → check iv A B b y →
    check iv A B a (x ++ y) := by
  intro x
  induction x with
  | nil => intro y a b h1 h2; cases h1; exact h2
  | cons i x ih => intro y a b h1 h2; exact ⟨h1.1, ih y _ b h1.2 h2⟩

/-- After some events of a batch. -/
def mid (iv : Nat) (D : List Event) : TA := ⟨false, false, false, D.map (part iv), D⟩

theorem leads_put {iv A B} : ∀ (es D : List Event), ((es.map (part iv)) ++ D.map (part iv)).Nodup →
    (∀ e ∈ es, A (part iv e)) → leads iv A B (mid iv D) (es.flatMap (Instr.put iv)) (mid iv (es.reverse ++ D)) := by
  intro es
  induction es with
  | nil => intro D _ _; rfl
  | cons e es ih =>
    intro D hn hA
    rw [List.flatMap_cons]
    have hn' := hn
    rw [List.map_cons, List.cons_append, List.nodup_cons, List.mem_append, not_or] at hn
    refine leads_append _ _ _ (mid iv (e :: D)) _ ?_ ?_
    · refine ⟨⟨rfl, rfl, rfl⟩, ⟨rfl, hn.1.2, hA e (by simp), rfl⟩, ⟨?_, hn.1.2⟩, rfl⟩
      exact List.mem_cons_self
    · rw [List.reverse_cons, List.append_assoc]
      refine ih (e :: D) ?_ (fun x hx => hA x (List.mem_cons_of_mem _ hx))
      rw [List.map_cons]
      refine List.Perm.nodup ?_ hn'
      exact List.perm_middle.symm

/-- Locks that are left after the record is written. -/
def rest (iv : Nat) (es : List Event) : TA := ⟨false, false, false, es.map (part iv), []⟩

theorem leads_commit {iv A B} : ∀ (es H : List Event), (es.map (part iv)).Nodup →
    ∀ a : TA, a.pend = false → a.wr = false → a.gone = false → a.D = [] → a.H.Perm (es.map (part iv)) →
    ∃ b, leads iv A B a (es.flatMap (Instr.commit iv)) b ∧ b = idle := by
  intro es
  induction es with
  | nil =>
    intro _ _ a h1 h2 h3 h4 h5
    refine ⟨a, rfl, ?_⟩
    obtain ⟨p, w, g, H, D⟩ := a
    dsimp only at h1 h2 h3 h4 h5
    have : H = [] := List.Perm.eq_nil h5
    subst h1 h2 h3 h4 this
    rfl
  | cons e es ih =>
    intro H hn a h1 h2 h3 h4 h5
    rw [List.map_cons, List.nodup_cons] at hn
    have hin : part iv e ∈ a.H := h5.mem_iff.2 (by simp)
    obtain ⟨b, hb, hb'⟩ := ih H hn.2 { a with H := a.H.erase (part iv e), pend := false } rfl h2 h3 h4 (by
      have := h5.erase (part iv e)
      rw [List.map_cons, List.erase_cons_head] at this
      exact this)
    refine ⟨b, ?_, hb'⟩
    rw [List.flatMap_cons]
    refine leads_append _ _ _ _ _ ?_ hb
    refine ⟨⟨hin, h1, ?_⟩, .inr rfl, ?_⟩
    · rw [h4]; simp
    · show nextA _ .release = _
      simp [nextA, h2]
      rfl

theorem leads_back {iv A B} : ∀ D : List Event, (D.map (part iv)).Nodup →
    leads iv A B (mid iv D) (D.flatMap (Instr.back iv)) idle := by
  intro D
  induction D with
  | nil => intro _; rfl
  | cons e D ih =>
    intro hn
    rw [List.map_cons, List.nodup_cons] at hn
    rw [List.flatMap_cons]
    refine leads_append _ _ _ (mid iv D) _ ?_ (ih hn.2)
    refine ⟨?_, ⟨List.mem_cons_self, rfl, hn.1⟩, .inr rfl, ?_⟩
    · intro e; cases e
    · show (⟨false, false, false, ((part iv e) :: D.map (part iv)).erase (part iv e), D⟩ : TA) = _
      rw [List.erase_cons_head]; rfl

theorem leads_reads {iv A B} (p : Nat) (a : TA) (h1 : p ∈ a.H) (h2 : a.D = []) : ∀ n,
    leads iv A B a (List.replicate n (.read p)) a := by
  intro n
  induction n with
  | zero => rfl
  | succ n ih => rw [List.replicate_succ]; exact ⟨⟨h1, h2⟩, ih⟩

theorem leads_call {iv A B} (c : Call) (ha : Apart iv c) (hA : ∀ p, Touches iv p c → A p)
    (hB : ∀ p, c = .drop p → B p) : leads iv A B idle (c.code iv) idle := by
  cases c with
  | write es =>
    have hn : (es.map (part iv)).Nodup := ha
    show leads iv A B idle (Instr.engine_write iv es) idle
    unfold Instr.engine_write
    refine leads_append _ _ _ (mid iv (es.reverse ++ [])) _ (leads_put es [] (by simpa using hn) ?_) ?_
    · intro e he; exact hA _ (List.mem_map.2 ⟨e, he, rfl⟩)
    · rw [List.append_nil]
      refine ⟨?_, ?_⟩
      · show es.reverse.reverse = es
        rw [List.reverse_reverse]
      · obtain ⟨b, h1, h2⟩ := leads_commit (iv := iv) (A := A) (B := B) es [] hn (nextA (mid iv es.reverse) (.log es)) rfl rfl rfl rfl (by
          show (es.reverse.map (part iv)).Perm _
          rw [List.map_reverse]
          exact List.reverse_perm _)
        rw [← h2]; exact h1
  | fail es =>
    have hn : (es.map (part iv)).Nodup := ha
    show leads iv A B idle (Instr.engine_write_failed iv es) idle
    unfold Instr.engine_write_failed
    refine leads_append _ _ _ (mid iv (es.reverse ++ [])) _ (leads_put es [] (by simpa using hn) ?_) ?_
    · intro e he; exact hA _ (List.mem_map.2 ⟨e, he, rfl⟩)
    · rw [List.append_nil]
      refine leads_back _ ?_
      rw [List.map_reverse]
      exact (List.reverse_perm _).symm.nodup hn
  | scan p n =>
    show leads iv A B idle (Instr.cursor p n) idle
    unfold Instr.cursor
    refine leads_append _ _ _ ⟨false, false, false, [p], []⟩ _ ?_ ?_
    · refine leads_append _ _ _ ⟨false, false, false, [p], []⟩ _ ?_ (leads_reads p _ (by simp) rfl n)
      exact ⟨⟨rfl, rfl, rfl⟩, ⟨rfl, by simp [nextA, idle], hA p rfl, rfl⟩, rfl⟩
    · refine ⟨⟨by simp, rfl, by simp⟩, .inr rfl, ?_⟩
      show (⟨false, false, false, [p].erase p, []⟩ : TA) = _
      rw [List.erase_cons_head]; rfl
  | drop p =>
    exact ⟨⟨rfl, rfl, rfl, rfl⟩, ⟨rfl, rfl, hB p rfl⟩, .inl rfl, trivial, rfl⟩

theorem chk_prog {iv A B} : ∀ l : List Call, (∀ c ∈ l, Apart iv c) → (∀ c ∈ l, ∀ p, Touches iv p c → A p) →
    (∀ p, Call.drop p ∈ l → B p) → check iv A B idle (l.flatMap (Call.code iv)) := by
  intro l
  induction l with
  | nil => intro _ _ _; rfl
  | cons c l ih =>
    intro h1 h2 h3
    rw [List.flatMap_cons]
    refine check_leads _ _ _ idle (leads_call c (h1 c (by simp)) (h2 c (by simp)) ?_) (ih ?_ ?_ ?_)
    · intro p e; exact h3 p (by rw [e]; simp)
    · intro x hx; exact h1 x (List.mem_cons_of_mem _ hx)
    · intro x hx; exact h2 x (List.mem_cons_of_mem _ hx)
    · intro p hp; exact h3 p (List.mem_cons_of_mem _ hp)

theorem start_inv {iv n prog A B} (h : ∀ t, check iv (A t) (B t) idle ((prog t).flatMap (Call.code iv))) :
    Inv iv n A B (start iv prog) (fun _ _ => 0) (fun _ => idle) [] where
  chk := h
  lk := by
    refine ⟨C31.inv_init n, ?_, ?_⟩
    · intro t l; simp [idle]
    · intro t l b e; cases e
  ct := by
    refine ⟨List.nodup_nil, rfl, ?_, ?_, ?_, ?_⟩
    · intro t p; simp [idle]
    · intro t; simp [idle]
    · intro t; simp [idle, start, Rwlock.init]
    · intro t e; cases e
  mm := by
    constructor
    · intro t; exact List.nodup_nil
    · intro t e he; cases he
    · intro t; exact List.nodup_nil
    · intro t; rfl
    · intro t p hp; cases hp
    · intro t k hk; cases hk
    · intro t e; cases e
    · intro t p e; cases e
    · intro k _ _; rfl

end Verif.C72
