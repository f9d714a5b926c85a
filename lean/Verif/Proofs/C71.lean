import Verif.Spec.C71
import Verif.Proofs.C31

/-! Lemmas for C71: an invariant of the threads, the locks and the memory. -/
namespace Verif.C71
open Access

/-- What is known of the pointer in a variable: nothing, that it is `ref->part`, or
that it is a partition nobody else knows. -/
inductive PS where
  | no
  | cur
  | priv
deriving DecidableEq

/-- What is known of a variable: the locks the thread has by it, and its pointer. -/
structure SA where
  s : Bool
  a : Bool
  p : PS

def SA.has (x : SA) : Ty → Bool
  | .service => x.s
  | .access => x.a

/-- What is known of a thread. -/
structure TA where
  pend : Bool
  wr : Bool
  gone : Bool
  occ : Nat → Bool
  sl : Nat → SA

def TA.set (a : TA) (i : Nat) (x : SA) : TA := { a with sl := fun j => if j = i then x else a.sl j }

def TA.setOcc (a : TA) (i : Nat) (b : Bool) : TA := { a with occ := fun j => if j = i then b else a.occ j }

/-- How that changes. -/
def nextA (a : TA) : Instr → TA
  | .shared => { a with pend := true }
  | .exclusive => { a with wr := true }
  | .release => if a.wr then { a with wr := false } else { a with pend := false }
  | .find i _ _ => { (a.set i ⟨false, false, .no⟩).setOcc i true with pend := false }
  | .lock i .service => a.set i { a.sl i with s := true }
  | .lock i .access => a.set i { a.sl i with a := true }
  | .unlock i .service => a.set i ⟨false, (a.sl i).a, .no⟩
  | .unlock i .access => a.set i ⟨(a.sl i).s, false, if (a.sl i).s then (a.sl i).p else .no⟩
  | .leave i => (a.set i ⟨false, false, .no⟩).setOcc i false
  | .load i => a.set i { a.sl i with p := .cur }
  | .use _ => a
  | .swap i => a.set i { a.sl i with p := .priv }
  | .free i => a.set i { a.sl i with p := .no }
  | .look => a
  | .remove _ _ => { a with gone := true }
  | .freeRef => { a with gone := false }

/-- What is asked before it. -/
def may (single : Bool) (a : TA) : Instr → Prop
  | .shared => a.pend = false ∧ a.wr = false
  | .exclusive => a.pend = false ∧ a.wr = false
  | .release => a.wr = true ∨ a.pend = true
  | .find i _ _ => a.pend = true ∧ a.wr = false ∧ a.occ i = false
  | .lock i ty => a.occ i = true ∧ (a.sl i).has ty = false ∧ (single = true → ∀ j, j ≠ i → a.occ j = false)
  | .unlock i ty => (a.sl i).has ty = true ∧ (ty = .service → (a.sl i).a = false)
  | .leave i => a.occ i = true ∧ (a.sl i).s = false ∧ (a.sl i).a = false
  | .load i => ((a.sl i).s = true ∨ (a.sl i).a = true) ∧ (a.sl i).p ≠ .priv
  | .use i => (a.sl i).p ≠ .no
  | .swap i => (a.sl i).s = true ∧ (a.sl i).a = true ∧ (a.sl i).p = .cur
  | .free i => (a.sl i).p = .priv
  | .look => a.pend = true ∨ a.wr = true
  | .remove _ _ => a.wr = true ∧ a.gone = false
  | .freeRef => a.gone = true

def check (single : Bool) : TA → List Instr → Prop
  | _, [] => True
  | a, x :: k => may single a x ∧ check single (nextA a x) k

/-- Thread `u` has the lock `ty` of reference `r` by variable `i`. -/
def Holds (s : State) (a : Nat → TA) (u i : Nat) (ty : Ty) (r : Nat) : Prop :=
  ∃ v, (s.th u).slot i = some v ∧ v.ref = r ∧ ((a u).sl i).has ty = true

/-- The partition locks. -/
structure Lk (n : Nat) (s : State) (d : Nat → Nat → Nat) (a : Nat → TA) : Prop where
  locks : C31.Inv n ⟨s.locks, d⟩
  hold : ∀ t l, d t l = 1 ↔ ∃ i ty r, Holds s a t i ty r ∧ l = lockOf r ty
  one : ∀ t i j ty r, Holds s a t i ty r → Holds s a t j ty r → i = j
  wait : ∀ t l b, s.locks.wait t = some (l, b) → ∃ i ty k v, (s.th t).todo = .lock i ty :: k ∧
    (s.th t).slot i = some v ∧ l = lockOf v.ref ty

/-- The control lock: who has it how often. -/
structure Ct (s : State) (a : Nat → TA) (R : List (Nat × Option Nat)) : Prop where
  nodup : R.Nodup
  len : s.control.readers = R.length
  slot : ∀ t i, (t, some i) ∈ R ↔ ∃ v, (s.th t).slot i = some v
  pend : ∀ t, (t, none) ∈ R ↔ (a t).pend = true
  writer : ∀ t, s.control.writer = some t ↔ (a t).wr = true
  alone : ∀ t, s.control.writer = some t → s.control.readers = 0

/-- The memory. -/
structure Mm (s : State) (a : Nat → TA) : Prop where
  occ : ∀ t i v, (s.th t).slot i = some v → (a t).occ i = true
  mapped : ∀ e ∈ s.mem.map, s.mem.refLive e.ref = true
  inmap : ∀ t i v, (s.th t).slot i = some v → ∃ e ∈ s.mem.map, e.ref = v.ref
  gone : ∀ t r, (s.th t).gone = some r → (a t).gone = true ∧ s.mem.refLive r = true ∧
    (∀ e ∈ s.mem.map, e.ref ≠ r) ∧ ∀ u, (s.th u).gone = some r → u = t
  plive : ∀ r, s.mem.refLive r = true → s.mem.partLive (s.mem.part r) = true
  pinj : ∀ r q, s.mem.refLive r = true → s.mem.refLive q = true → s.mem.part r = s.mem.part q → r = q
  rfresh : ∀ r, s.mem.refLive r = true → r < s.mem.next
  pfresh : ∀ p, s.mem.partLive p = true → p < s.mem.next
  cur : ∀ t i v, (s.th t).slot i = some v → ((a t).sl i).p = .cur → v.ptr = some (s.mem.part v.ref) ∧
    (((a t).sl i).s = true ∨ ((a t).sl i).a = true)
  priv : ∀ t i v, (s.th t).slot i = some v → ((a t).sl i).p = .priv → ((a t).sl i).s = true ∧ ∃ o, v.ptr = some o ∧
    s.mem.partLive o = true ∧ ∀ r, s.mem.refLive r = true → s.mem.part r ≠ o
  privs : ∀ t i v u j w, (s.th t).slot i = some v → ((a t).sl i).p = .priv → (s.th u).slot j = some w →
    ((a u).sl j).p = .priv → v.ptr = w.ptr → t = u ∧ i = j

structure Inv (single : Bool) (n : Nat) (s : State) (d : Nat → Nat → Nat) (a : Nat → TA)
    (R : List (Nat × Option Nat)) : Prop where
  chk : ∀ t, check single (a t) (s.th t).todo
  lk : Lk n s d a
  ct : Ct s a R
  mm : Mm s a

theorem lockOf_inj {r q : Nat} {x y : Ty} (h : lockOf r x = lockOf q y) : r = q ∧ x = y := by
  cases x <;> cases y <;> simp only [lockOf, Act.serviceOf, Act.accessOf] at h <;>
    first
    | exact ⟨by omega, rfl⟩
    | (exfalso; omega)

/-- What is known of thread `t` changes. -/
def upd (a : Nat → TA) (t : Nat) (x : TA) : Nat → TA := fun u => if u = t then x else a u

theorem upd_same (a : Nat → TA) (t : Nat) (x : TA) : upd a t x t = x := if_pos rfl
theorem upd_ne (a : Nat → TA) {t u : Nat} (x : TA) (h : u ≠ t) : upd a t x u = a u := if_neg h

theorem setTh_same (s : State) (t : Nat) (x : Th) : setTh s t x t = x := if_pos rfl
theorem setTh_ne (s : State) {t u : Nat} (x : Th) (h : u ≠ t) : setTh s t x u = s.th u := if_neg h

theorem setSlot_same (x : Th) (i : Nat) (v : Option Slot) : setSlot x i v i = v := if_pos rfl
theorem setSlot_ne (x : Th) {i j : Nat} (v : Option Slot) (h : j ≠ i) : setSlot x i v j = x.slot j := if_neg h

theorem set_same (a : TA) (i : Nat) (x : SA) : (a.set i x).sl i = x := if_pos rfl
theorem set_ne (a : TA) {i j : Nat} (x : SA) (h : j ≠ i) : (a.set i x).sl j = a.sl j := if_neg h

/-! ### Locks -/

/-- Nothing changes for the locks. -/
theorem Lk.congr {n s d a s' a'} (h : Lk n s d a) (hl : s'.locks = s.locks)
    (hh : ∀ u i ty r, Holds s' a' u i ty r ↔ Holds s a u i ty r)
    (hw : ∀ u, s.locks.wait u = none ∨ s'.th u = s.th u) : Lk n s' d a' where
  locks := by rw [hl]; exact h.locks
  hold := by
    intro t l
    rw [h.hold]
    constructor
    · rintro ⟨i, ty, r, x, e⟩; exact ⟨i, ty, r, (hh _ _ _ _).2 x, e⟩
    · rintro ⟨i, ty, r, x, e⟩; exact ⟨i, ty, r, (hh _ _ _ _).1 x, e⟩
  one := fun t i j ty r x y => h.one t i j ty r ((hh _ _ _ _).1 x) ((hh _ _ _ _).1 y)
  wait := by
    intro t l b e
    rw [hl] at e
    rcases hw t with h1 | h1
    · rw [h1] at e; cases e
    · rw [h1]; exact h.wait t l b e

/-- A thread whose next step is not `lock` is awake. -/
theorem Lk.awake {n s d a} (h : Lk n s d a) {t : Nat}
    (hn : ∀ i ty k, (s.th t).todo ≠ .lock i ty :: k) : s.locks.wait t = none := by
  cases hw : s.locks.wait t with
  | none => rfl
  | some x =>
    obtain ⟨i, ty, k, v, e, _⟩ := h.wait t x.1 x.2 hw
    exact absurd e (hn i ty k)

/-- At most one thread has a lock. -/
theorem Lk.excl {n s d a} (h : Lk n s d a) {t u i j ty r} (x : Holds s a t i ty r) (y : Holds s a u j ty r) :
    t = u ∧ i = j := by
  have e1 := (h.locks.holder t (lockOf r ty)).2 ((h.hold _ _).2 ⟨i, ty, r, x, rfl⟩)
  have e2 := (h.locks.holder u (lockOf r ty)).2 ((h.hold _ _).2 ⟨j, ty, r, y, rfl⟩)
  rw [e1] at e2
  cases e2
  exact ⟨rfl, h.one _ _ _ _ _ x y⟩

/-- A lock is taken. -/
theorem Lk.took {n s d a s' a'} (h : Lk n s d a) {t i : Nat} {ty : Ty} {r : Nat} (hd : d t (lockOf r ty) = 0)
    (hi : C31.Inv n ⟨s'.locks, C31.bump d t (lockOf r ty) (· + 1)⟩)
    (hh : ∀ u j x q, Holds s' a' u j x q ↔ Holds s a u j x q ∨ (u = t ∧ j = i ∧ x = ty ∧ q = r))
    (hw : ∀ u l b, s'.locks.wait u = some (l, b) → u ≠ t ∧ s'.th u = s.th u ∧ ∃ b, s.locks.wait u = some (l, b)) :
    Lk n s' (C31.bump d t (lockOf r ty) (· + 1)) a' where
  locks := hi
  hold := by
    intro u l
    unfold C31.bump
    by_cases hc : u = t ∧ l = lockOf r ty
    · rw [if_pos hc, hc.1, hc.2, hd]
      simp only [true_iff, Nat.zero_add]
      exact ⟨i, ty, r, (hh _ _ _ _).2 (.inr ⟨rfl, rfl, rfl, rfl⟩), rfl⟩
    · rw [if_neg hc, h.hold]
      constructor
      · rintro ⟨j, x, q, y, e⟩; exact ⟨j, x, q, (hh _ _ _ _).2 (.inl y), e⟩
      · rintro ⟨j, x, q, y, e⟩
        rcases (hh _ _ _ _).1 y with y | ⟨e1, _, e3, e4⟩
        · exact ⟨j, x, q, y, e⟩
        · subst e1 e3 e4
          exact absurd ⟨rfl, e⟩ hc
  one := by
    intro u j k x q y z
    have no : ∀ j, ¬ Holds s a t j ty r := by
      intro j hj
      have := (h.hold t (lockOf r ty)).2 ⟨j, ty, r, hj, rfl⟩
      omega
    rcases (hh _ _ _ _).1 y with y | ⟨e1, e2, e3, e4⟩ <;> rcases (hh _ _ _ _).1 z with z | ⟨f1, f2, f3, f4⟩
    · exact h.one _ _ _ _ _ y z
    · subst f1 f3 f4; exact absurd y (no _)
    · subst e1 e3 e4; exact absurd z (no _)
    · rw [e2, f2]
  wait := by
    intro u l b e
    obtain ⟨_, h2, b', h3⟩ := hw u l b e
    rw [h2]
    exact h.wait u l b' h3

/-- A lock is given back. -/
theorem Lk.gave {n s d a s' a'} (h : Lk n s d a) {t i : Nat} {ty : Ty} {r : Nat} (hd : Holds s a t i ty r)
    (hi : C31.Inv n ⟨s'.locks, C31.bump d t (lockOf r ty) (· - 1)⟩)
    (hh : ∀ u j x q, Holds s' a' u j x q ↔ Holds s a u j x q ∧ ¬ (u = t ∧ j = i ∧ x = ty ∧ q = r))
    (hw : ∀ u l b, s'.locks.wait u = some (l, b) → s'.th u = s.th u ∧ ∃ b, s.locks.wait u = some (l, b)) :
    Lk n s' (C31.bump d t (lockOf r ty) (· - 1)) a' where
  locks := hi
  hold := by
    intro u l
    unfold C31.bump
    by_cases hc : u = t ∧ l = lockOf r ty
    · rw [if_pos hc, hc.1, hc.2, (h.hold t (lockOf r ty)).2 ⟨i, ty, r, hd, rfl⟩]
      simp only [Nat.sub_self, Nat.zero_ne_one, false_iff, not_exists, not_and]
      intro j x q y e
      obtain ⟨e1, e2⟩ := lockOf_inj e
      subst e1 e2
      obtain ⟨y1, y2⟩ := (hh _ _ _ _).1 y
      exact y2 ⟨rfl, h.one _ _ _ _ _ y1 hd, rfl, rfl⟩
    · rw [if_neg hc, h.hold]
      constructor
      · rintro ⟨j, x, q, y, e⟩
        refine ⟨j, x, q, (hh _ _ _ _).2 ⟨y, ?_⟩, e⟩
        rintro ⟨e1, _, e3, e4⟩
        subst e1 e3 e4
        exact hc ⟨rfl, e⟩
      · rintro ⟨j, x, q, y, e⟩; exact ⟨j, x, q, ((hh _ _ _ _).1 y).1, e⟩
  one := fun u j k x q y z => h.one u j k x q ((hh _ _ _ _).1 y).1 ((hh _ _ _ _).1 z).1
  wait := by
    intro u l b e
    obtain ⟨h2, b', h3⟩ := hw u l b e
    rw [h2]
    exact h.wait u l b' h3

/-! ### Control -/

/-- A token is taken out. -/
theorem erase_mem {R : List (Nat × Option Nat)} (hn : R.Nodup) (x y : Nat × Option Nat) :
    y ∈ R.erase x ↔ y ≠ x ∧ y ∈ R := hn.mem_erase_iff

/-- Nothing changes for the control lock. -/
theorem Ct.congr {s a R s' a'} (h : Ct s a R) (hc : s'.control = s.control)
    (hs : ∀ u i, (∃ v, (s'.th u).slot i = some v) ↔ ∃ v, (s.th u).slot i = some v)
    (hp : ∀ u, (a' u).pend = (a u).pend) (hw : ∀ u, (a' u).wr = (a u).wr) : Ct s' a' R where
  nodup := h.nodup
  len := by rw [hc]; exact h.len
  slot := fun t i => (h.slot t i).trans (hs t i).symm
  pend := fun t => by rw [hp]; exact h.pend t
  writer := fun t => by rw [hc, hw]; exact h.writer t
  alone := fun t => by rw [hc]; exact h.alone t

/-- A reader leaves. -/
theorem Ct.drop {s a R s' a'} (h : Ct s a R) (x : Nat × Option Nat) (hx : x ∈ R)
    (hs : ∀ u i, (∃ v, (s'.th u).slot i = some v) ↔ (u, some i) ≠ x ∧ ∃ v, (s.th u).slot i = some v)
    (hp : ∀ u, (a' u).pend = true ↔ (u, none) ≠ x ∧ (a u).pend = true) (hw : ∀ u, (a' u).wr = (a u).wr)
    {c : Rwlock} (hc : s.control.unlock = .ok c) (hc' : s'.control = c) : Ct s' a' (R.erase x) := by
  have hlen := h.len
  have hpos := List.length_pos_of_mem hx
  have hwn : s.control.writer = none := by
    cases e : s.control.writer with
    | none => rfl
    | some t => have := h.alone t e; omega
  unfold Rwlock.unlock at hc
  rw [hwn] at hc
  cases hr : s.control.readers with
  | zero => omega
  | succ m =>
    rw [hr] at hc
    dsimp only at hc
    cases hc
    refine ⟨h.nodup.erase x, ?_, ?_, ?_, ?_, ?_⟩
    · rw [hc', List.length_erase_of_mem hx]; show m = _; omega
    · intro t i; rw [erase_mem h.nodup, h.slot]; exact (hs t i).symm
    · intro t; rw [erase_mem h.nodup, h.pend]; exact (hp t).symm
    · intro t; rw [hc', hw, ← h.writer t, hwn]
    · intro t e; rw [hc'] at e; cases e

theorem Ct.unlock_ok {s a R} (h : Ct s a R) (x : Nat × Option Nat) (hx : x ∈ R) : ∃ c, s.control.unlock = .ok c := by
  have hlen := h.len
  have hpos := List.length_pos_of_mem hx
  unfold Rwlock.unlock
  cases e : s.control.writer with
  | some t => exact ⟨_, rfl⟩
  | none =>
    cases hr : s.control.readers with
    | zero => omega
    | succ m => exact ⟨_, rfl⟩

/-- Under the exclusive lock no thread has a reference. -/
theorem Ct.empty {s a R} (h : Ct s a R) {t : Nat} (hw : (a t).wr = true) (u i : Nat) : (s.th u).slot i = none := by
  cases e : (s.th u).slot i with
  | none => rfl
  | some v =>
    have h1 := (h.slot u i).2 ⟨v, e⟩
    have h2 := h.alone t ((h.writer t).2 hw)
    have h3 := h.len
    have := List.length_pos_of_mem h1
    omega

/-! ### Memory -/

/-- Nothing changes for the memory; variables may be forgotten. -/
theorem Mm.congr {s a s' a'} (h : Mm s a) (hm : s'.mem = s.mem)
    (hs : ∀ u i v, (s'.th u).slot i = some v → (s.th u).slot i = some v) (hg : ∀ u, (s'.th u).gone = (s.th u).gone)
    (hag : ∀ u, (a' u).gone = (a u).gone) (ho : ∀ u i v, (s'.th u).slot i = some v → (a' u).occ i = (a u).occ i)
    (hp : ∀ u i v, (s'.th u).slot i = some v → ((a' u).sl i).p = .no ∨ (((a' u).sl i).p = ((a u).sl i).p ∧
      (((a u).sl i).s = true → ((a' u).sl i).s = true) ∧
      (((a u).sl i).s = true ∨ ((a u).sl i).a = true → ((a' u).sl i).s = true ∨ ((a' u).sl i).a = true))) :
    Mm s' a' where
  occ := fun t i v e => by rw [ho t i v e]; exact h.occ t i v (hs t i v e)
  mapped := by rw [hm]; exact h.mapped
  inmap := fun t i v e => by rw [hm]; exact h.inmap t i v (hs t i v e)
  gone := by
    intro t r e
    rw [hg] at e
    obtain ⟨h1, h2, h3, h4⟩ := h.gone t r e
    rw [hag, hm]
    exact ⟨h1, h2, h3, fun u e => by rw [hg] at e; exact h4 u e⟩
  plive := by rw [hm]; exact h.plive
  pinj := by rw [hm]; exact h.pinj
  rfresh := by rw [hm]; exact h.rfresh
  pfresh := by rw [hm]; exact h.pfresh
  cur := by
    intro t i v e ec
    rcases hp t i v e with x | ⟨x, _, y⟩
    · rw [x] at ec; cases ec
    · rw [x] at ec
      obtain ⟨h1, h2⟩ := h.cur t i v (hs t i v e) ec
      rw [hm]
      exact ⟨h1, y h2⟩
  priv := by
    intro t i v e ec
    rcases hp t i v e with x | ⟨x, y, _⟩
    · rw [x] at ec; cases ec
    · rw [x] at ec
      obtain ⟨h1, h2⟩ := h.priv t i v (hs t i v e) ec
      rw [hm]
      exact ⟨y h1, h2⟩
  privs := by
    intro t i v u j w e ec f fc g
    rcases hp t i v e with x | ⟨x, _⟩
    · rw [x] at ec; cases ec
    · rcases hp u j w f with y | ⟨y, _⟩
      · rw [y] at fc; cases fc
      · rw [x] at ec
        rw [y] at fc
        exact h.privs t i v u j w (hs _ _ _ e) ec (hs _ _ _ f) fc g

/-! ### Steps -/

theorem chk_next {single n s d a R} (h : Inv single n s d a R) {t x k} (ht : (s.th t).todo = x :: k)
    {th' : Nat → Th} (h1 : (th' t).todo = k) (h2 : ∀ u, u ≠ t → th' u = s.th u) :
    ∀ u, check single (upd a t (nextA (a t) x) u) (th' u).todo := by
  intro u
  by_cases e : u = t
  · subst e
    rw [upd_same, h1]
    have := h.chk u
    rw [ht] at this
    exact this.2
  · rw [upd_ne _ _ e, h2 u e]; exact h.chk u

theorem may_next {single n s d a R} (h : Inv single n s d a R) {t x k} (ht : (s.th t).todo = x :: k) :
    may single (a t) x := by
  have := h.chk t
  rw [ht] at this
  exact this.1

/-- The thread waits, or has done the first thing it had to do. -/
def Adv (s : State) (a : Nat → TA) (t : Nat) (s' : State) (a' : Nat → TA) : Prop :=
  (a' = a ∧ s'.th = s.th) ∨ ∃ x k, (s.th t).todo = x :: k ∧ a' = upd a t (nextA (a t) x) ∧ (s'.th t).todo = k ∧
    ∀ u, u ≠ t → s'.th u = s.th u

/-- What a step has to give. -/
def Goes (single : Bool) (n : Nat) (s : State) (a : Nat → TA) (t : Nat) (w : Bool) : Prop :=
  ∃ s', step s t w = .ok s' ∧ ∃ d a' R, Adv s a t s' a' ∧ Inv single n s' d a' R

theorem adv_set {s : State} {a : Nat → TA} {t x k} (ht : (s.th t).todo = x :: k) {s' : State} (y : Th)
    (h : s'.th = setTh s t y) (hy : y.todo = k) : Adv s a t s' (upd a t (nextA (a t) x)) :=
  .inr ⟨x, k, ht, rfl, by rw [h, setTh_same, hy], fun u hu => by rw [h]; exact setTh_ne s _ hu⟩

theorem done_todo (s : State) (t : Nat) (k : List Instr) : (done s t k t).todo = k := by
  unfold done; rw [setTh_same]
theorem done_slot (s : State) (t : Nat) (k : List Instr) (u : Nat) : (done s t k u).slot = (s.th u).slot := by
  unfold done setTh; split
  · rename_i e; subst e; rfl
  · rfl
theorem done_gone (s : State) (t : Nat) (k : List Instr) (u : Nat) : (done s t k u).gone = (s.th u).gone := by
  unfold done setTh; split
  · rename_i e; subst e; rfl
  · rfl
theorem done_ne (s : State) (t : Nat) (k : List Instr) (u : Nat) (h : u ≠ t) : done s t k u = s.th u :=
  setTh_ne s _ h

/-- A step that only changes what is known of the control lock and the drop. -/
theorem inv_plain {single n s d a R} (h : Inv single n s d a R) {t x k} (ht : (s.th t).todo = x :: k)
    (hx : ∀ i ty, x ≠ .lock i ty) {s' : State} (hth : s'.th = done s t k) (hl : s'.locks = s.locks)
    (hm : s'.mem = s.mem) (hsl : (nextA (a t) x).sl = (a t).sl) (hoc : (nextA (a t) x).occ = (a t).occ)
    (hg : (nextA (a t) x).gone = (a t).gone) {R'} (hc : Ct s' (upd a t (nextA (a t) x)) R') :
    Inv single n s' d (upd a t (nextA (a t) x)) R' := by
  have hsl' : ∀ u, (upd a t (nextA (a t) x) u).sl = (a u).sl := by
    intro u; unfold upd; split
    · rename_i e; rw [e, hsl]
    · rfl
  have hslot : ∀ u, (s'.th u).slot = (s.th u).slot := fun u => by rw [hth, done_slot]
  refine ⟨?_, ?_, hc, ?_⟩
  · refine chk_next h ht ?_ ?_
    · rw [hth, done_todo]
    · intro u hu; rw [hth, done_ne _ _ _ _ hu]
  · refine h.lk.congr hl ?_ ?_
    · intro u i ty r; unfold Holds; rw [hslot, hsl']
    · intro u
      by_cases e : u = t
      · left
        subst e
        refine h.lk.awake ?_
        intro i ty k' e'
        rw [ht] at e'
        cases e'
        exact hx _ _ rfl
      · right; rw [hth, done_ne _ _ _ _ e]
  · refine h.mm.congr hm ?_ ?_ ?_ ?_ ?_
    · intro u i v e; rw [hslot] at e; exact e
    · intro u; rw [hth, done_gone]
    · intro u; unfold upd; split
      · rename_i e; rw [e, hg]
      · rfl
    · intro u i v _; unfold upd; split
      · rename_i e; rw [e, hoc]
      · rfl
    · intro u i v _; right; rw [hsl']; exact ⟨rfl, id, id⟩

/-- The variable is empty: the step is skipped. -/
theorem inv_skip {single n s d a R} (h : Inv single n s d a R) {t x k} (ht : (s.th t).todo = x :: k) {i : Nat}
    (hi : (s.th t).slot i = none)
    (hsl : ∀ j, j ≠ i → (nextA (a t) x).sl j = (a t).sl j) (hoc : ∀ j, j ≠ i → (nextA (a t) x).occ j = (a t).occ j)
    (hg : (nextA (a t) x).gone = (a t).gone) (hp : (nextA (a t) x).pend = (a t).pend)
    (hw : (nextA (a t) x).wr = (a t).wr) (hx : s.locks.wait t = none) :
    Inv single n { s with th := done s t k } d (upd a t (nextA (a t) x)) R := by
  have hslot : ∀ u, ((done s t k) u).slot = (s.th u).slot := fun u => done_slot s t k u
  have hne : ∀ u j v, (s.th u).slot j = some v → u ≠ t ∨ j ≠ i := by
    intro u j v e
    by_cases e1 : u = t
    · right; intro e2; rw [e1, e2, hi] at e; cases e
    · exact .inl e1
  have hsl' : ∀ u j v, (s.th u).slot j = some v → (upd a t (nextA (a t) x) u).sl j = (a u).sl j := by
    intro u j v e
    by_cases e1 : u = t
    · rcases hne u j v e with e2 | e2
      · exact absurd e1 e2
      · rw [e1, upd_same, hsl j e2]
    · rw [upd_ne _ _ e1]
  refine ⟨?_, ?_, ?_, ?_⟩
  · refine chk_next h ht ?_ ?_
    · exact done_todo s t k
    · intro u hu; exact done_ne _ _ _ _ hu
  · refine h.lk.congr rfl ?_ ?_
    · intro u j ty r
      unfold Holds
      dsimp only
      rw [hslot]
      constructor
      · rintro ⟨v, e1, e2, e3⟩; exact ⟨v, e1, e2, by rw [hsl' u j v e1] at e3; exact e3⟩
      · rintro ⟨v, e1, e2, e3⟩; exact ⟨v, e1, e2, by rw [hsl' u j v e1]; exact e3⟩
    · intro u
      by_cases e : u = t
      · left; rw [e]; exact hx
      · right; exact done_ne _ _ _ _ e
  · refine h.ct.congr rfl ?_ ?_ ?_
    · intro u j; dsimp only; rw [hslot]
    · intro u; unfold upd; split
      · rename_i e; rw [e, hp]
      · rfl
    · intro u; unfold upd; split
      · rename_i e; rw [e, hw]
      · rfl
  · refine h.mm.congr rfl ?_ ?_ ?_ ?_ ?_
    · intro u j v e; dsimp only at e; rw [hslot] at e; exact e
    · intro u; exact done_gone _ _ _ _
    · intro u; unfold upd; split
      · rename_i e; rw [e, hg]
      · rfl
    · intro u j v e
      dsimp only at e
      rw [hslot] at e
      by_cases e1 : u = t
      · rcases hne u j v e with e2 | e2
        · exact absurd e1 e2
        · rw [e1, upd_same, hoc j e2]
      · rw [upd_ne _ _ e1]
    · intro u j v e
      dsimp only at e
      rw [hslot] at e
      right
      rw [hsl' u j v e]
      exact ⟨rfl, id, id⟩

theorem step_shared {single n s d a R} (h : Inv single n s d a R) {t k} (ht : (s.th t).todo = .shared :: k)
    (w : Bool) : Goes single n s a t w := by
  have hm := may_next h ht
  unfold Goes step
  rw [ht]
  dsimp only
  cases hr : s.control.rdlock false with
  | none => exact ⟨s, rfl, d, a, R, .inl ⟨rfl, rfl⟩, h⟩
  | some c =>
    refine ⟨_, rfl, d, upd a t (nextA (a t) .shared), (t, none) :: R, adv_set ht _ rfl rfl, ?_⟩
    refine inv_plain h ht (by intro i ty e; cases e) (by exact rfl) (by exact rfl) (by exact rfl) (by exact rfl) (by exact rfl) (by exact rfl) ?_
    unfold Rwlock.rdlock at hr
    split at hr
    · rename_i hcond
      cases hr
      have hnot : (t, none) ∉ R := by
        intro e; rw [h.ct.pend] at e; rw [hm.1] at e; cases e
      refine ⟨List.nodup_cons.2 ⟨hnot, h.ct.nodup⟩, ?_, ?_, ?_, ?_, ?_⟩
      · show s.control.readers + 1 = _; rw [h.ct.len]; rfl
      · intro u i
        dsimp only
        rw [done_slot, ← h.ct.slot]
        simp
      · intro u
        rw [List.mem_cons, h.ct.pend]
        by_cases e : u = t
        · subst e; rw [upd_same]; simp [nextA]
        · rw [upd_ne _ _ e]; simp [e]
      · intro u
        show s.control.writer = some u ↔ _
        rw [h.ct.writer]
        by_cases e : u = t
        · subst e; rw [upd_same]; simp [nextA]
        · rw [upd_ne _ _ e]
      · intro u e
        dsimp only at e
        rw [hcond.1] at e; cases e
    · cases hr

theorem step_exclusive {single n s d a R} (h : Inv single n s d a R) {t k} (ht : (s.th t).todo = .exclusive :: k)
    (w : Bool) : Goes single n s a t w := by
  have hm := may_next h ht
  unfold Goes step
  rw [ht]
  dsimp only
  cases hr : s.control.wrlock t with
  | none => exact ⟨s, rfl, d, a, R, .inl ⟨rfl, rfl⟩, h⟩
  | some c =>
    refine ⟨_, rfl, d, upd a t (nextA (a t) .exclusive), R, adv_set ht _ rfl rfl, ?_⟩
    refine inv_plain h ht (by intro i ty e; cases e) (by exact rfl) (by exact rfl) (by exact rfl) (by exact rfl) (by exact rfl) (by exact rfl) ?_
    unfold Rwlock.wrlock at hr
    split at hr
    · rename_i hcond
      cases hr
      refine ⟨h.ct.nodup, ?_, ?_, ?_, ?_, ?_⟩
      · exact h.ct.len
      · intro u i
        dsimp only
        rw [done_slot, ← h.ct.slot]
      · intro u
        rw [h.ct.pend]
        by_cases e : u = t
        · subst e; rw [upd_same]; simp [nextA]
        · rw [upd_ne _ _ e]
      · intro u
        dsimp only
        by_cases e : u = t
        · subst e; rw [upd_same]; simp [nextA]
        · rw [upd_ne _ _ e, ← h.ct.writer, hcond.1]
          simp; exact fun e' => e e'.symm
      · intro u _
        exact hcond.2
    · cases hr

theorem step_release {single n s d a R} (h : Inv single n s d a R) {t k} (ht : (s.th t).todo = .release :: k)
    (w : Bool) : Goes single n s a t w := by
  have hm := may_next h ht
  unfold Goes step
  rw [ht]
  dsimp only
  by_cases hwr : (a t).wr = true
  · have hw := (h.ct.writer t).2 hwr
    have hu : s.control.unlock = .ok { s.control with writer := none } := by unfold Rwlock.unlock; rw [hw]
    rw [hu, Res.bind_ok]
    have hn : nextA (a t) .release = { a t with wr := false } := by simp [nextA, hwr]
    refine ⟨_, rfl, d, upd a t (nextA (a t) .release), R, adv_set ht _ rfl rfl, ?_⟩
    refine inv_plain h ht (by intro i ty e; cases e) (by exact rfl) (by exact rfl) (by exact rfl) (by rw [hn]) (by rw [hn]) (by rw [hn]) ?_
    rw [hn]
    refine ⟨h.ct.nodup, h.ct.len, ?_, ?_, ?_, ?_⟩
    · intro u i
      dsimp only
      rw [done_slot, ← h.ct.slot]
    · intro u
      rw [h.ct.pend]
      by_cases e : u = t
      · subst e; rw [upd_same]
      · rw [upd_ne _ _ e]
    · intro u
      dsimp only
      by_cases e : u = t
      · subst e; rw [upd_same]; simp
      · rw [upd_ne _ _ e, ← h.ct.writer, hw]
        simp; exact fun e' => e e'.symm
    · intro u e
      cases e
  · have hp : (a t).pend = true := by
      rcases hm with e | e
      · exact absurd e hwr
      · exact e
    have hx := (h.ct.pend t).2 hp
    obtain ⟨c, hc⟩ := h.ct.unlock_ok _ hx
    rw [hc, Res.bind_ok]
    have hn : nextA (a t) .release = { a t with pend := false } := by simp [nextA, hwr]
    refine ⟨_, rfl, d, upd a t (nextA (a t) .release), R.erase (t, none), adv_set ht _ rfl rfl, ?_⟩
    refine inv_plain h ht (by intro i ty e; cases e) (by exact rfl) (by exact rfl) (by exact rfl) (by rw [hn]) (by rw [hn]) (by rw [hn]) ?_
    rw [hn]
    refine h.ct.drop _ hx ?_ ?_ ?_ hc rfl
    · intro u i
      dsimp only
      rw [done_slot]
      simp
    · intro u
      by_cases e : u = t
      · subst e; rw [upd_same]; simp
      · rw [upd_ne _ _ e]; simp [e]
    · intro u
      by_cases e : u = t
      · subst e; rw [upd_same]
      · rw [upd_ne _ _ e]

theorem step_use {single n s d a R} (h : Inv single n s d a R) {t i k} (ht : (s.th t).todo = .use i :: k)
    (w : Bool) : Goes single n s a t w := by
  have hm := may_next h ht
  unfold Goes step
  rw [ht]
  dsimp only
  have hend : Inv single n { s with th := done s t k } d (upd a t (nextA (a t) (.use i))) R := by
    refine inv_plain h ht (by intro i ty e; cases e) (by exact rfl) (by exact rfl) (by exact rfl) (by exact rfl) (by exact rfl) (by exact rfl) ?_
    refine h.ct.congr rfl ?_ ?_ ?_
    · intro u j; dsimp only; rw [done_slot]
    · intro u; unfold upd; split
      · rename_i e; subst e; rfl
      · rfl
    · intro u; unfold upd; split
      · rename_i e; subst e; rfl
      · rfl
  cases hs : (s.th t).slot i with
  | none => exact ⟨_, rfl, d, _, R, adv_set ht _ rfl rfl, hend⟩
  | some v =>
    dsimp only
    cases hp : ((a t).sl i).p with
    | no => exact absurd hp hm
    | cur =>
      rw [(h.mm.cur t i v hs hp).1]
      dsimp only
      obtain ⟨e, he, he'⟩ := h.mm.inmap t i v hs
      rw [h.mm.plive v.ref (by rw [← he']; exact h.mm.mapped e he), if_pos rfl]
      exact ⟨_, rfl, d, _, R, adv_set ht _ rfl rfl, hend⟩
    | priv =>
      obtain ⟨_, o, e1, e2, _⟩ := h.mm.priv t i v hs hp
      rw [e1]
      dsimp only
      rw [e2, if_pos rfl]
      exact ⟨_, rfl, d, _, R, adv_set ht _ rfl rfl, hend⟩

theorem step_look {single n s d a R} (h : Inv single n s d a R) {t k} (ht : (s.th t).todo = .look :: k)
    (w : Bool) : Goes single n s a t w := by
  unfold Goes step
  rw [ht]
  dsimp only
  rw [if_pos]
  · refine ⟨_, rfl, d, upd a t (nextA (a t) .look), R, adv_set ht _ rfl rfl, ?_⟩
    refine inv_plain h ht (by intro i ty e; cases e) (by exact rfl) (by exact rfl) (by exact rfl) (by exact rfl) (by exact rfl) (by exact rfl) ?_
    refine h.ct.congr rfl ?_ ?_ ?_
    · intro u j; dsimp only; rw [done_slot]
    · intro u; unfold upd; split
      · rename_i e; subst e; rfl
      · rfl
    · intro u; unfold upd; split
      · rename_i e; subst e; rfl
      · rfl
  · rw [List.all_eq_true]
    intro e he
    have h1 := h.mm.mapped e he
    rw [h1, h.mm.plive _ h1]
    rfl

/-! Locks -/

theorem attempt_wait (l : Locks) (t p u : Nat) : (l.attempt t p).1.wait u =
    if u = t then (if (l.attempt t p).2 then none else some (p, false)) else l.wait u := by
  unfold Locks.attempt
  cases (l.lock p).locker <;> simp only [Locks.setWait] <;> split <;> simp_all

theorem holds_lock {s s' : State} {a : Nat → TA} {t i r : Nat} {ty : Ty} {v : Slot}
    (hth : ∀ u, (s'.th u).slot = (s.th u).slot) (hs : (s.th t).slot i = some v) (hv : v.ref = r) (u j : Nat) (x : Ty) (q : Nat) :
    Holds s' (upd a t (nextA (a t) (.lock i ty))) u j x q ↔
      Holds s a u j x q ∨ (u = t ∧ j = i ∧ x = ty ∧ q = r) := by
  unfold Holds
  rw [hth]
  by_cases e : u = t
  · subst e
    rw [upd_same]
    by_cases ej : j = i
    · subst ej
      rw [hs]
      cases ty <;> cases x <;> simp only [nextA, set_same, SA.has] <;> constructor
      all_goals
        intro h
        simp only [Option.some.injEq, exists_eq_left', true_and, reduceCtorEq, false_and, and_false, or_false,
          and_true] at h ⊢
        first
        | exact h
        | (rw [hv] at h ⊢; rcases h with ⟨h, _⟩ | h <;> first | exact h | exact h.symm)
        | (right; rw [← h, hv])
        | (rw [hv] at h ⊢; exact .inr h.symm)
    · have : (nextA (a u) (.lock i ty)).sl j = (a u).sl j := by cases ty <;> exact set_ne _ _ ej
      rw [this]
      simp [ej]
  · rw [upd_ne _ _ e]
    simp [e]

/-- What is known of the control lock and the memory stays when a lock is taken. -/
theorem lock_rest {single n s d a R} (h : Inv single n s d a R) {t i ty k} (ht : (s.th t).todo = .lock i ty :: k)
    (l : Locks) : (∀ u, check single (upd a t (nextA (a t) (.lock i ty)) u) ((done s t k u).todo)) ∧
    Ct { s with locks := l, th := done s t k } (upd a t (nextA (a t) (.lock i ty))) R ∧
    Mm { s with locks := l, th := done s t k } (upd a t (nextA (a t) (.lock i ty))) := by
  refine ⟨?_, ?_, ?_⟩
  · refine chk_next h ht (done_todo s t k) ?_
    intro u hu; exact done_ne _ _ _ _ hu
  · refine h.ct.congr rfl ?_ ?_ ?_
    · intro u j; dsimp only; rw [done_slot]
    · intro u; unfold upd; split
      · rename_i e; subst e; cases ty <;> rfl
      · rfl
    · intro u; unfold upd; split
      · rename_i e; subst e; cases ty <;> rfl
      · rfl
  · refine h.mm.congr rfl ?_ ?_ ?_ ?_ ?_
    · intro u j v e; dsimp only at e; rw [done_slot] at e; exact e
    · intro u; exact done_gone _ _ _ _
    · intro u; unfold upd; split
      · rename_i e; subst e; cases ty <;> rfl
      · rfl
    · intro u j v _; unfold upd; split
      · rename_i e; subst e; cases ty <;> rfl
      · rfl
    · intro u j v _
      right
      by_cases e : u = t
      · subst e
        rw [upd_same]
        by_cases ej : j = i
        · subst ej
          cases ty <;> simp only [nextA, set_same] <;> simp
        · have : (nextA (a u) (.lock i ty)).sl j = (a u).sl j := by cases ty <;> exact set_ne _ _ ej
          rw [this]; exact ⟨rfl, id, id⟩
      · rw [upd_ne _ _ e]; exact ⟨rfl, id, id⟩

theorem step_lock {single n s d a R} (h : Inv single n s d a R) {t i ty k} (ht : (s.th t).todo = .lock i ty :: k)
    (htn : t < n) (hnest : ¬ Nests s t) (w : Bool) : Goes single n s a t w := by
  have hm := may_next h ht
  unfold Goes step
  rw [ht]
  dsimp only
  cases hs : (s.th t).slot i with
  | none =>
    refine ⟨_, rfl, d, upd a t (nextA (a t) (.lock i ty)), R, adv_set ht _ rfl rfl, ?_⟩
    refine inv_skip h ht hs ?_ ?_ ?_ ?_ ?_ ?_
    · intro j ej; cases ty <;> exact set_ne _ _ ej
    · intro j _; cases ty <;> rfl
    · cases ty <;> rfl
    · cases ty <;> rfl
    · cases ty <;> rfl
    · cases hw : s.locks.wait t with
      | none => rfl
      | some x =>
        obtain ⟨i', ty', k', v, e1, e2, _⟩ := h.lk.wait t x.1 x.2 hw
        rw [ht] at e1
        cases e1
        rw [hs] at e2; cases e2
  | some v =>
    dsimp only
    obtain ⟨e, he, he'⟩ := h.mm.inmap t i v hs
    rw [show s.mem.refLive v.ref = true by rw [← he']; exact h.mm.mapped e he, if_pos rfl]
    have hno : (s.locks.lock (lockOf v.ref ty)).locker ≠ some t := fun e => hnest ⟨i, ty, k, v, ht, hs, e⟩
    have hd : d t (lockOf v.ref ty) = 0 := by
      have h1 := h.lk.locks.atmost t (lockOf v.ref ty)
      have h2 := h.lk.locks.holder t (lockOf v.ref ty)
      have : d t (lockOf v.ref ty) ≠ 1 := fun e => hno (h2.2 e)
      dsimp only at h1
      omega
    have main : ∀ (l0 : Locks) (b : Bool) (r : Locks × Bool), r = (l0.attempt t (lockOf v.ref ty)) →
        (∀ u, u ≠ t → l0.wait u = s.locks.wait u) →
        C31.Inv n ⟨r.1, if r.2 then C31.bump d t (lockOf v.ref ty) (· + 1) else d⟩ →
        ∃ d a' R, Adv s a t { s with locks := r.1, th := if r.2 then done s t k else s.th } a' ∧
          Inv single n { s with locks := r.1, th := if r.2 then done s t k else s.th } d a' R := by
      intro l0 b r hr hl0 hinv
      have hwait : ∀ u, r.1.wait u = if u = t then (if r.2 then none else some (lockOf v.ref ty, false)) else l0.wait u := by
        intro u; rw [hr]; exact attempt_wait _ _ _ _
      cases hr2 : r.2 with
      | true =>
        rw [hr2, if_pos rfl] at hinv
        simp only [if_true]
        obtain ⟨c1, c2, c3⟩ := lock_rest h ht r.1
        refine ⟨C31.bump d t (lockOf v.ref ty) (· + 1), _, R, adv_set ht _ rfl rfl, c1, ?_, c2, c3⟩
        · refine h.lk.took hd hinv (holds_lock (fun u => done_slot s t k u) hs rfl) ?_
          intro u l b' e
          dsimp only at e
          rw [hwait, hr2] at e
          by_cases eu : u = t
          · rw [if_pos eu] at e; cases e
          · rw [if_neg eu, hl0 u eu] at e
            exact ⟨eu, done_ne _ _ _ _ eu, b', e⟩
      | false =>
        rw [hr2] at hinv
        simp only [Bool.false_eq_true, if_false] at hinv ⊢
        refine ⟨d, a, R, .inl ⟨rfl, rfl⟩, h.chk, ⟨hinv, h.lk.hold, h.lk.one, ?_⟩, ?_, ?_⟩
        · intro u l b' e
          dsimp only at e ⊢
          rw [hwait, hr2] at e
          by_cases eu : u = t
          · subst eu
            rw [if_pos rfl] at e
            cases e
            exact ⟨i, ty, k, v, ht, hs, rfl⟩
          · rw [if_neg eu, hl0 u eu] at e
            exact h.lk.wait u l b' e
        · exact h.ct.congr rfl (fun _ _ => Iff.rfl) (fun _ => rfl) (fun _ => rfl)
        · exact h.mm.congr rfl (fun _ _ _ e => e) (fun _ => rfl) (fun _ => rfl) (fun _ _ _ _ => rfl)
            (fun _ _ _ _ => .inr ⟨rfl, id, id⟩)
    cases hw : s.locks.wait t with
    | some x =>
      obtain ⟨l, woken⟩ := x
      dsimp only
      split
      · refine ⟨_, rfl, ?_⟩
        obtain ⟨i', ty', k', v', e1, e2, e3⟩ := h.lk.wait t l woken hw
        rw [ht] at e1
        cases e1
        rw [hs] at e2
        cases e2
        subst e3
        refine main ⟨s.locks.setLock (lockOf v.ref ty) { s.locks.lock (lockOf v.ref ty) with
            pending := (s.locks.lock (lockOf v.ref ty)).pending - 1 }, s.locks.wait⟩ true _ ?_ ?_ ?_
        · unfold Locks.wake; rw [hw]
        · intro u _; rfl
        · refine C31.inv_step h.lk.locks (.wake t) ?_
          simp only [C31.step, hw]
      · exact ⟨s, rfl, d, a, R, .inl ⟨rfl, rfl⟩, h⟩
    | none =>
      dsimp only
      refine ⟨_, rfl, ?_⟩
      refine main s.locks true _ ?_ (fun _ _ => rfl) ?_
      · unfold Locks.lockage_lock; rw [if_neg hno]
      · refine C31.inv_step h.lk.locks (.lock t (lockOf v.ref ty)) ?_
        simp only [C31.step, hw, hd, htn, and_self, or_true, if_true]

theorem step_unlock {single n s d a R} (h : Inv single n s d a R) {t i ty k} (ht : (s.th t).todo = .unlock i ty :: k)
    (w : Bool) : Goes single n s a t w := by
  have hm := may_next h ht
  have hwait : s.locks.wait t = none := h.lk.awake (by intro i ty k e; rw [ht] at e; cases e)
  unfold Goes step
  rw [ht]
  dsimp only
  cases hs : (s.th t).slot i with
  | none =>
    refine ⟨_, rfl, d, upd a t (nextA (a t) (.unlock i ty)), R, adv_set ht _ rfl rfl, ?_⟩
    refine inv_skip h ht hs ?_ ?_ ?_ ?_ ?_ hwait
    · intro j ej; cases ty <;> exact set_ne _ _ ej
    · intro j _; cases ty <;> rfl
    · cases ty <;> rfl
    · cases ty <;> rfl
    · cases ty <;> rfl
  | some v =>
    dsimp only
    obtain ⟨e, he, he'⟩ := h.mm.inmap t i v hs
    rw [show s.mem.refLive v.ref = true by rw [← he']; exact h.mm.mapped e he, if_pos rfl]
    have hh : Holds s a t i ty v.ref := ⟨v, hs, rfl, hm.1⟩
    have hd : d t (lockOf v.ref ty) = 1 := (h.lk.hold _ _).2 ⟨i, ty, v.ref, hh, rfl⟩
    refine ⟨_, rfl, C31.bump d t (lockOf v.ref ty) (· - 1), upd a t (nextA (a t) (.unlock i ty)), R, adv_set ht _ rfl rfl, ?_, ?_, ?_, ?_⟩
    · refine chk_next h ht (done_todo s t k) ?_
      intro u hu; exact done_ne _ _ _ _ hu
    · refine h.lk.gave hh ?_ ?_ ?_
      · refine C31.inv_step h.lk.locks (.unlock t (lockOf v.ref ty)) ?_
        simp only [C31.step, hwait, hd]
        rfl
      · intro u j x q
        unfold Holds
        dsimp only
        rw [done_slot]
        by_cases e : u = t
        · subst e
          rw [upd_same]
          by_cases ej : j = i
          · subst ej
            rw [hs]
            cases ty <;> cases x <;> simp only [nextA, set_same, SA.has] <;> simp
            all_goals
              intro e1 e2
              first
              | exact e1.symm
              | exact fun e3 => e3 e1.symm
          · have : (nextA (a u) (.unlock i ty)).sl j = (a u).sl j := by cases ty <;> exact set_ne _ _ ej
            rw [this]
            simp [ej]
        · rw [upd_ne _ _ e]
          simp [e]
      · intro u l b e
        dsimp only at e ⊢
        have hu : ∃ b, s.locks.wait u = some (l, b) := by
          unfold Locks.lockage_unlock at e
          dsimp only at e
          split at e
          · exact ⟨b, e⟩
          · split at e
            · dsimp only [Locks.broadcast] at e
              cases hw : s.locks.wait u with
              | none => rw [hw] at e; cases e
              | some y => rw [hw] at e; cases e; exact ⟨y.2, rfl⟩
            · exact ⟨b, e⟩
        refine ⟨?_, hu⟩
        refine done_ne _ _ _ _ ?_
        intro e'
        obtain ⟨b', hb'⟩ := hu
        rw [e', hwait] at hb'
        cases hb'
    · refine h.ct.congr rfl ?_ ?_ ?_
      · intro u j; dsimp only; rw [done_slot]
      · intro u; unfold upd; split
        · rename_i e; subst e; cases ty <;> rfl
        · rfl
      · intro u; unfold upd; split
        · rename_i e; subst e; cases ty <;> rfl
        · rfl
    · refine h.mm.congr rfl ?_ ?_ ?_ ?_ ?_
      · intro u j v e; dsimp only at e; rw [done_slot] at e; exact e
      · intro u; exact done_gone _ _ _ _
      · intro u; unfold upd; split
        · rename_i e; subst e; cases ty <;> rfl
        · rfl
      · intro u j v _; unfold upd; split
        · rename_i e; subst e; cases ty <;> rfl
        · rfl
      · intro u j v _
        by_cases e : u = t
        · subst e
          rw [upd_same]
          by_cases ej : j = i
          · subst ej
            cases ty
            · left; simp only [nextA, set_same]
            · simp only [nextA, set_same]
              cases hx : ((a u).sl j).s <;> simp
          · right
            have : (nextA (a u) (.unlock i ty)).sl j = (a u).sl j := by cases ty <;> exact set_ne _ _ ej
            rw [this]; exact ⟨rfl, id, id⟩
        · right; rw [upd_ne _ _ e]; exact ⟨rfl, id, id⟩

/-! Variables -/

theorem put_todo (s : State) (t i : Nat) (v : Option Slot) (k : List Instr) : (put s t i v k t).todo = k := by
  unfold put; rw [setTh_same]
theorem put_slot (s : State) (t i : Nat) (v : Option Slot) (k : List Instr) : (put s t i v k t).slot i = v := by
  unfold put; rw [setTh_same]; exact setSlot_same _ _ _
theorem put_slot_ne (s : State) (t i : Nat) (v : Option Slot) (k : List Instr) (u j : Nat) (h : ¬ (u = t ∧ j = i)) :
    (put s t i v k u).slot j = (s.th u).slot j := by
  unfold put
  by_cases e : u = t
  · subst e; rw [setTh_same]; exact setSlot_ne _ _ (fun e => h ⟨rfl, e⟩)
  · rw [setTh_ne _ _ e]
theorem put_gone (s : State) (t i : Nat) (v : Option Slot) (k : List Instr) (u : Nat) :
    (put s t i v k u).gone = (s.th u).gone := by
  unfold put setTh; split
  · rename_i e; subst e; rfl
  · rfl
theorem put_ne (s : State) (t i : Nat) (v : Option Slot) (k : List Instr) (u : Nat) (h : u ≠ t) :
    put s t i v k u = s.th u := setTh_ne s _ h

/-- A variable gets a reference or a pointer. -/
theorem Mm.slot {s a s' a'} (h : Mm s a) (hm : s'.mem = s.mem) {t i : Nat} {v : Slot}
    (hv : (s'.th t).slot i = some v) (hs : ∀ u j, ¬ (u = t ∧ j = i) → (s'.th u).slot j = (s.th u).slot j)
    (hg : ∀ u, (s'.th u).gone = (s.th u).gone) (hag : ∀ u, (a' u).gone = (a u).gone)
    (ho : (a' t).occ i = true) (hon : ∀ u j, ¬ (u = t ∧ j = i) → (a' u).occ j = (a u).occ j)
    (hsl : ∀ u j, ¬ (u = t ∧ j = i) → (a' u).sl j = (a u).sl j)
    (hin : ∃ e ∈ s.mem.map, e.ref = v.ref)
    (hp : ((a' t).sl i).p = .no ∨ (((a' t).sl i).p = .cur ∧ v.ptr = some (s.mem.part v.ref) ∧
      (((a' t).sl i).s = true ∨ ((a' t).sl i).a = true))) : Mm s' a' where
  occ := by
    intro u j x e
    by_cases c : u = t ∧ j = i
    · rw [c.1, c.2]; exact ho
    · rw [hon u j c]; rw [hs u j c] at e; exact h.occ u j x e
  mapped := by rw [hm]; exact h.mapped
  inmap := by
    intro u j x e
    rw [hm]
    by_cases c : u = t ∧ j = i
    · rw [c.1, c.2, hv] at e; cases e; exact hin
    · rw [hs u j c] at e; exact h.inmap u j x e
  gone := by
    intro t r e
    rw [hg] at e
    obtain ⟨h1, h2, h3, h4⟩ := h.gone t r e
    rw [hag, hm]
    exact ⟨h1, h2, h3, fun u e => by rw [hg] at e; exact h4 u e⟩
  plive := by rw [hm]; exact h.plive
  pinj := by rw [hm]; exact h.pinj
  rfresh := by rw [hm]; exact h.rfresh
  pfresh := by rw [hm]; exact h.pfresh
  cur := by
    intro u j x e ec
    rw [hm]
    by_cases c : u = t ∧ j = i
    · obtain ⟨rfl, rfl⟩ := c
      rw [hv] at e; cases e
      rcases hp with hp | hp
      · rw [hp] at ec; cases ec
      · exact ⟨hp.2.1, hp.2.2⟩
    · rw [hs u j c] at e
      rw [hsl u j c] at ec ⊢
      exact h.cur u j x e ec
  priv := by
    intro u j x e ec
    rw [hm]
    by_cases c : u = t ∧ j = i
    · obtain ⟨rfl, rfl⟩ := c
      rcases hp with hp | hp
      · rw [hp] at ec; cases ec
      · rw [hp.1] at ec; cases ec
    · rw [hs u j c] at e
      rw [hsl u j c] at ec ⊢
      exact h.priv u j x e ec
  privs := by
    intro u j x u' j' x' e ec e' ec' g
    by_cases c : u = t ∧ j = i
    · obtain ⟨rfl, rfl⟩ := c
      rcases hp with hp | hp
      · rw [hp] at ec; cases ec
      · rw [hp.1] at ec; cases ec
    · by_cases c' : u' = t ∧ j' = i
      · obtain ⟨rfl, rfl⟩ := c'
        rcases hp with hp | hp
        · rw [hp] at ec'; cases ec'
        · rw [hp.1] at ec'; cases ec'
      · rw [hs u j c] at e
        rw [hs u' j' c'] at e'
        rw [hsl u j c] at ec
        rw [hsl u' j' c'] at ec'
        exact h.privs u j x u' j' x' e ec e' ec' g

/-- A partition is created. -/
theorem Mm.create {s a} (h : Mm s a) (min max : Nat) : Mm { s with mem := engine_create s.mem min max } a := by
  have hmap : ∀ e, e ∈ (engine_create s.mem min max).map ↔ e ∈ s.mem.map ∨ e = ⟨min, max, s.mem.next⟩ := by
    intro e
    simp only [engine_create, List.mem_append, List.mem_filter, List.mem_singleton, decide_eq_true_eq]
    constructor
    · rintro ((⟨h, _⟩ | h) | ⟨h, _⟩)
      · exact .inl h
      · exact .inr h
      · exact .inl h
    · rintro (h | h)
      · by_cases hc : e.min ≤ min
        · exact .inl (.inl ⟨h, hc⟩)
        · exact .inr ⟨h, hc⟩
      · exact .inl (.inr h)
  have hlive : ∀ r, (engine_create s.mem min max).refLive r = true ↔ r = s.mem.next ∨ s.mem.refLive r = true := by
    intro r; simp [engine_create]
  have hplive : ∀ r, (engine_create s.mem min max).partLive r = true ↔ r = s.mem.next ∨ s.mem.partLive r = true := by
    intro r; simp [engine_create]
  have hpart : ∀ r, (engine_create s.mem min max).part r = if r = s.mem.next then s.mem.next else s.mem.part r :=
    fun _ => rfl
  have hold : ∀ r, s.mem.refLive r = true → (engine_create s.mem min max).part r = s.mem.part r := by
    intro r hr
    rw [hpart, if_neg]
    have := h.rfresh r hr
    omega
  have hpl : ∀ r, s.mem.refLive r = true → s.mem.part r ≠ s.mem.next := by
    intro r hr
    have := h.pfresh _ (h.plive r hr)
    omega
  refine ⟨h.occ, ?_, ?_, ?_, ?_, ?_, ?_, ?_, ?_, ?_, h.privs⟩ <;> dsimp only
  · intro e he
    rw [hlive]
    rcases (hmap e).1 he with h1 | h1
    · exact .inr (h.mapped e h1)
    · exact .inl (by rw [h1])
  · intro t i v e
    obtain ⟨x, hx, hx'⟩ := h.inmap t i v e
    exact ⟨x, (hmap x).2 (.inl hx), hx'⟩
  · intro t r e
    obtain ⟨h1, h2, h3, h4⟩ := h.gone t r e
    refine ⟨h1, (hlive r).2 (.inr h2), ?_, h4⟩
    intro x hx
    rcases (hmap x).1 hx with hx | hx
    · exact h3 x hx
    · rw [hx]; have := h.rfresh r h2; dsimp only; omega
  · intro r hr
    rw [hplive]
    rcases (hlive r).1 hr with h1 | h1
    · left; rw [hpart, if_pos h1]
    · right; rw [hold r h1]; exact h.plive r h1
  · intro r q hr hq e
    rcases (hlive r).1 hr with h1 | h1 <;> rcases (hlive q).1 hq with h2 | h2
    · rw [h1, h2]
    · rw [hold q h2, hpart, if_pos h1] at e
      exact absurd e.symm (hpl q h2)
    · rw [hold r h1, hpart, if_pos h2] at e
      exact absurd e (hpl r h1)
    · rw [hold r h1, hold q h2] at e
      exact h.pinj r q h1 h2 e
  · intro r hr
    show r < s.mem.next + 1
    rcases (hlive r).1 hr with h1 | h1
    · omega
    · have := h.rfresh r h1; omega
  · intro r hr
    show r < s.mem.next + 1
    rcases (hplive r).1 hr with h1 | h1
    · omega
    · have := h.pfresh r h1; omega
  · intro t i v e ec
    obtain ⟨x, hx, hx'⟩ := h.inmap t i v e
    rw [hold v.ref (by rw [← hx']; exact h.mapped x hx)]
    exact h.cur t i v e ec
  · intro t i v e ec
    obtain ⟨h1, o, h2, h3, h4⟩ := h.priv t i v e ec
    refine ⟨h1, o, h2, (hplive o).2 (.inr h3), ?_⟩
    intro r hr
    rcases (hlive r).1 hr with h5 | h5
    · rw [hpart, if_pos h5]; have := h.pfresh o h3; omega
    · rw [hold r h5]; exact h4 r h5

/-- What the search gives. -/
theorem search_cases (m : Mem) (id : Nat) (how : How) :
    ((search m id how).1 = m ∧ (search m id how).2 = none) ∨
    (∃ e ∈ m.map, (search m id how).1 = m ∧ (search m id how).2 = some e.ref) ∨
    (∃ min max, (search m id how).1 = engine_create m min max ∧ (search m id how).2 = some m.next) := by
  cases how with
  | gte =>
    cases hf : m.map.find? (fun s => id ≤ s.max) with
    | none => left; (unfold search; dsimp only; rw [hf]; exact ⟨rfl, rfl⟩)
    | some e => right; left; refine ⟨e, List.mem_of_find?_eq_some hf, ?_⟩; (unfold search; dsimp only; rw [hf]; exact ⟨rfl, rfl⟩)
  | match_ =>
    cases hf : m.map.find? (fun s => s.min ≤ id ∧ id ≤ s.max) with
    | none => left; (unfold search; dsimp only; rw [hf]; exact ⟨rfl, rfl⟩)
    | some e => right; left; refine ⟨e, List.mem_of_find?_eq_some hf, ?_⟩; (unfold search; dsimp only; rw [hf]; exact ⟨rfl, rfl⟩)
  | create lo hi =>
    cases hf : m.map.find? (fun s => s.min ≤ id ∧ id ≤ s.max) with
    | none => right; right; refine ⟨lo, hi, ?_⟩; (unfold search; dsimp only; rw [hf]; exact ⟨rfl, rfl⟩)
    | some e => right; left; refine ⟨e, List.mem_of_find?_eq_some hf, ?_⟩; (unfold search; dsimp only; rw [hf]; exact ⟨rfl, rfl⟩)

theorem step_find {single n s d a R} (h : Inv single n s d a R) {t i id how k}
    (ht : (s.th t).todo = .find i id how :: k) (w : Bool) : Goes single n s a t w := by
  obtain ⟨hp, hwr, hocc⟩ := may_next h ht
  have hwait : s.locks.wait t = none := h.lk.awake (by intro i ty k e; rw [ht] at e; cases e)
  have hi : (s.th t).slot i = none := by
    cases e : (s.th t).slot i with
    | none => rfl
    | some v => have := h.mm.occ t i v e; rw [hocc] at this; cases this
  have hx := (h.ct.pend t).2 hp
  have hnx : nextA (a t) (.find i id how) =
    { ((a t).set i ⟨false, false, .no⟩).setOcc i true with pend := false } := rfl
  have hsl : ∀ u j, ¬ (u = t ∧ j = i) → (upd a t (nextA (a t) (.find i id how)) u).sl j = (a u).sl j := by
    intro u j c
    by_cases e : u = t
    · subst e; rw [upd_same]; exact set_ne _ _ (fun e => c ⟨rfl, e⟩)
    · rw [upd_ne _ _ e]
  have hon : ∀ u j, ¬ (u = t ∧ j = i) → (upd a t (nextA (a t) (.find i id how)) u).occ j = (a u).occ j := by
    intro u j c
    by_cases e : u = t
    · subst e; rw [upd_same, hnx]; dsimp only [TA.setOcc, TA.set]; rw [if_neg (fun e => c ⟨rfl, e⟩)]
    · rw [upd_ne _ _ e]
  have hsi : ((upd a t (nextA (a t) (.find i id how)) t).sl i) = ⟨false, false, .no⟩ := by
    rw [upd_same, hnx]; dsimp only [TA.setOcc]; exact set_same _ _ _
  have hgo : ∀ u, (upd a t (nextA (a t) (.find i id how)) u).gone = (a u).gone := by
    intro u; unfold upd; split
    · rename_i e; subst e; rfl
    · rfl
  have hpe : ∀ u, (upd a t (nextA (a t) (.find i id how)) u).pend = true ↔ (u, (none : Option Nat)) ≠ (t, none) ∧ (a u).pend = true := by
    intro u
    by_cases e : u = t
    · subst e; rw [upd_same, hnx]; simp
    · rw [upd_ne _ _ e]; simp [e]
  have hwe : ∀ u, (upd a t (nextA (a t) (.find i id how)) u).wr = (a u).wr := by
    intro u; unfold upd; split
    · rename_i e; subst e; rfl
    · rfl
  have hholds : ∀ (s' : State) v, s'.th = put s t i v k → ∀ u j ty r,
      Holds s' (upd a t (nextA (a t) (.find i id how))) u j ty r ↔ Holds s a u j ty r := by
    intro s' v e u j ty r
    unfold Holds
    rw [e]
    by_cases c : u = t ∧ j = i
    · obtain ⟨rfl, rfl⟩ := c
      rw [hsi, hi]
      constructor
      · rintro ⟨v, _, _, e⟩; cases ty <;> cases e
      · rintro ⟨v, e, _⟩; cases e
    · rw [put_slot_ne _ _ _ _ _ _ _ c, hsl u j c]
  have hlk : ∀ (s' : State) v, s'.th = put s t i v k → s'.locks = s.locks →
      Lk n s' d (upd a t (nextA (a t) (.find i id how))) := by
    intro s' v e el
    refine h.lk.congr el (hholds s' v e) ?_
    intro u
    by_cases eu : u = t
    · left; rw [eu]; exact hwait
    · right; rw [e]; exact put_ne _ _ _ _ _ _ eu
  have hchk : ∀ v, ∀ u, check single (upd a t (nextA (a t) (.find i id how)) u) (put s t i v k u).todo := by
    intro v
    refine chk_next h ht (put_todo _ _ _ _ _) ?_
    intro u hu; exact put_ne _ _ _ _ _ _ hu
  -- a reference is found
  have found : ∀ m r, (m = s.mem ∨ ∃ min max, m = engine_create s.mem min max) → (∃ e ∈ m.map, e.ref = r) →
      Inv single n { s with
        mem := m,
        th := put s t i (some ⟨r, none⟩) k } d (upd a t (nextA (a t) (.find i id how))) ((t, some i) :: R.erase (t, none)) := by
    intro m r hm hr
    refine ⟨hchk _, hlk _ _ rfl rfl, ?_, ?_⟩
    · refine ⟨List.nodup_cons.2 ⟨?_, h.ct.nodup.erase _⟩, ?_, ?_, ?_, ?_, ?_⟩
      · rw [erase_mem h.ct.nodup, h.ct.slot, hi]
        rintro ⟨_, v, e⟩; cases e
      · rw [List.length_cons, List.length_erase_of_mem hx]
        show s.control.readers = _
        rw [h.ct.len]
        have := List.length_pos_of_mem hx
        omega
      · intro u j
        dsimp only
        rw [List.mem_cons, erase_mem h.ct.nodup, h.ct.slot]
        by_cases c : u = t ∧ j = i
        · obtain ⟨rfl, rfl⟩ := c
          rw [put_slot]; simp
        · rw [put_slot_ne _ _ _ _ _ _ _ c]
          constructor
          · rintro (e | e)
            · cases e; exact absurd ⟨rfl, rfl⟩ c
            · exact e.2
          · intro e; exact .inr ⟨by simp, e⟩
      · intro u
        rw [List.mem_cons, erase_mem h.ct.nodup, h.ct.pend, hpe]
        simp
      · intro u
        rw [hwe]; exact h.ct.writer u
      · exact h.ct.alone
    · have hb : Mm { s with mem := m } a := by
        rcases hm with rfl | ⟨lo, hi', rfl⟩
        · exact h.mm
        · exact h.mm.create lo hi'
      refine hb.slot rfl (t := t) (i := i) (put_slot _ _ _ _ _) ?_ ?_ hgo ?_ hon hsl hr (.inl ?_)
      · intro u j c; exact put_slot_ne _ _ _ _ _ _ _ c
      · intro u; exact put_gone _ _ _ _ _ _
      · rw [upd_same, hnx]; dsimp only [TA.setOcc]; rw [if_pos rfl]
      · rw [hsi]
  unfold Goes step
  rw [ht]
  dsimp only
  rcases search_cases s.mem id how with ⟨e1, e2⟩ | ⟨x, hx1, e1, e2⟩ | ⟨lo, hi', e1, e2⟩
  · rw [show search s.mem id how = (s.mem, none) from Prod.ext e1 e2]
    dsimp only
    obtain ⟨c, hc⟩ := h.ct.unlock_ok _ hx
    rw [hc, Res.bind_ok]
    have hth : ∀ u j v, (put s t i none k u).slot j = some v → (s.th u).slot j = some v := by
      intro u j v e
      by_cases c : u = t ∧ j = i
      · rw [c.1, c.2, put_slot] at e; cases e
      · rw [put_slot_ne _ _ _ _ _ _ _ c] at e; exact e
    have hnot : ∀ u j v, (put s t i none k u).slot j = some v → ¬ (u = t ∧ j = i) := by
      intro u j v e c
      rw [c.1, c.2, put_slot] at e; cases e
    refine ⟨_, rfl, d, upd a t (nextA (a t) (.find i id how)), R.erase (t, none), adv_set ht _ rfl rfl, hchk _, hlk _ _ rfl rfl, ?_, ?_⟩
    · refine h.ct.drop _ hx ?_ hpe hwe hc rfl
      intro u j
      dsimp only
      by_cases c : u = t ∧ j = i
      · obtain ⟨rfl, rfl⟩ := c
        rw [put_slot, hi]; simp
      · rw [put_slot_ne _ _ _ _ _ _ _ c]; simp
    · refine h.mm.congr rfl hth ?_ hgo ?_ ?_
      · intro u; exact put_gone _ _ _ _ _ _
      · intro u j v e; exact hon u j (hnot u j v e)
      · intro u j v e; right; rw [hsl u j (hnot u j v e)]; exact ⟨rfl, fun x => x, fun x => x⟩
  · rw [show search s.mem id how = (s.mem, some x.ref) from Prod.ext e1 e2]
    exact ⟨_, rfl, _, _, _, adv_set ht _ rfl rfl, found s.mem x.ref (.inl rfl) ⟨x, hx1, rfl⟩⟩
  · rw [show search s.mem id how = (engine_create s.mem lo hi', some s.mem.next) from Prod.ext e1 e2]
    refine ⟨_, rfl, _, _, _, adv_set ht _ rfl rfl, found _ s.mem.next (.inr ⟨lo, hi', rfl⟩) ⟨⟨lo, hi', s.mem.next⟩, ?_, rfl⟩⟩
    simp [engine_create]

theorem step_leave {single n s d a R} (h : Inv single n s d a R) {t i k}
    (ht : (s.th t).todo = .leave i :: k) (w : Bool) : Goes single n s a t w := by
  obtain ⟨hocc, hms, hma⟩ := may_next h ht
  have hwait : s.locks.wait t = none := h.lk.awake (by intro i ty k e; rw [ht] at e; cases e)
  unfold Goes step
  rw [ht]
  dsimp only
  have hsl : ∀ u j, ¬ (u = t ∧ j = i) → (upd a t (nextA (a t) (.leave i)) u).sl j = (a u).sl j := by
    intro u j c
    by_cases e : u = t
    · subst e; rw [upd_same]; exact set_ne _ _ (fun e => c ⟨rfl, e⟩)
    · rw [upd_ne _ _ e]
  have hon : ∀ u j, ¬ (u = t ∧ j = i) → (upd a t (nextA (a t) (.leave i)) u).occ j = (a u).occ j := by
    intro u j c
    by_cases e : u = t
    · subst e; rw [upd_same]; dsimp only [nextA, TA.setOcc, TA.set]; rw [if_neg (fun e => c ⟨rfl, e⟩)]
    · rw [upd_ne _ _ e]
  cases hi : (s.th t).slot i with
  | none =>
    refine ⟨_, rfl, d, upd a t (nextA (a t) (.leave i)), R, adv_set ht _ rfl rfl, inv_skip h ht hi ?_ ?_ rfl rfl rfl hwait⟩
    · intro j ej; exact set_ne _ _ ej
    · intro j ej; dsimp only [nextA, TA.setOcc, TA.set]; rw [if_neg ej]
  | some v0 =>
    dsimp only
    have hx := (h.ct.slot t i).2 ⟨v0, hi⟩
    obtain ⟨c, hc⟩ := h.ct.unlock_ok _ hx
    rw [hc, Res.bind_ok]
    have hth : ∀ u j v, (put s t i none k u).slot j = some v → (s.th u).slot j = some v := by
      intro u j v e
      by_cases c : u = t ∧ j = i
      · rw [c.1, c.2, put_slot] at e; cases e
      · rw [put_slot_ne _ _ _ _ _ _ _ c] at e; exact e
    have hnot : ∀ u j v, (put s t i none k u).slot j = some v → ¬ (u = t ∧ j = i) := by
      intro u j v e c
      rw [c.1, c.2, put_slot] at e; cases e
    refine ⟨_, rfl, d, upd a t (nextA (a t) (.leave i)), R.erase (t, some i), adv_set ht _ rfl rfl, ?_, ?_, ?_, ?_⟩
    · refine chk_next h ht (put_todo _ _ _ _ _) ?_
      intro u hu; exact put_ne _ _ _ _ _ _ hu
    · refine h.lk.congr rfl ?_ ?_
      · intro u j ty r
        unfold Holds
        dsimp only
        by_cases c : u = t ∧ j = i
        · obtain ⟨rfl, rfl⟩ := c
          rw [put_slot]
          constructor
          · rintro ⟨v, e, _⟩; cases e
          · rintro ⟨v, _, _, e⟩
            cases ty
            · rw [SA.has, hms] at e; cases e
            · rw [SA.has, hma] at e; cases e
        · rw [put_slot_ne _ _ _ _ _ _ _ c, hsl u j c]
      · intro u
        by_cases eu : u = t
        · left; rw [eu]; exact hwait
        · right; exact put_ne _ _ _ _ _ _ eu
    · refine h.ct.drop _ hx ?_ ?_ ?_ hc rfl
      · intro u j
        dsimp only
        by_cases c : u = t ∧ j = i
        · obtain ⟨rfl, rfl⟩ := c
          rw [put_slot]; simp
        · rw [put_slot_ne _ _ _ _ _ _ _ c]
          constructor
          · intro e; exact ⟨by intro e'; cases e'; exact c ⟨rfl, rfl⟩, e⟩
          · exact fun e => e.2
      · intro u
        have : (upd a t (nextA (a t) (.leave i)) u).pend = (a u).pend := by
          unfold upd; split
          · rename_i e; subst e; rfl
          · rfl
        rw [this]; simp
      · intro u; unfold upd; split
        · rename_i e; subst e; rfl
        · rfl
    · refine h.mm.congr rfl hth ?_ ?_ ?_ ?_
      · intro u; exact put_gone _ _ _ _ _ _
      · intro u; unfold upd; split
        · rename_i e; subst e; rfl
        · rfl
      · intro u j v e; exact hon u j (hnot u j v e)
      · intro u j v e; right; rw [hsl u j (hnot u j v e)]; exact ⟨rfl, fun x => x, fun x => x⟩

theorem step_load {single n s d a R} (h : Inv single n s d a R) {t i k}
    (ht : (s.th t).todo = .load i :: k) (w : Bool) : Goes single n s a t w := by
  obtain ⟨hlk, hpr⟩ := may_next h ht
  have hwait : s.locks.wait t = none := h.lk.awake (by intro i ty k e; rw [ht] at e; cases e)
  unfold Goes step
  rw [ht]
  dsimp only
  have hsl : ∀ u j, ¬ (u = t ∧ j = i) → (upd a t (nextA (a t) (.load i)) u).sl j = (a u).sl j := by
    intro u j c
    by_cases e : u = t
    · subst e; rw [upd_same]; exact set_ne _ _ (fun e => c ⟨rfl, e⟩)
    · rw [upd_ne _ _ e]
  have hsi : (upd a t (nextA (a t) (.load i)) t).sl i = { (a t).sl i with p := .cur } := by
    rw [upd_same]; exact set_same _ _ _
  have hrest : ∀ u, (upd a t (nextA (a t) (.load i)) u).gone = (a u).gone ∧
      (upd a t (nextA (a t) (.load i)) u).pend = (a u).pend ∧ (upd a t (nextA (a t) (.load i)) u).wr = (a u).wr ∧
      (upd a t (nextA (a t) (.load i)) u).occ = (a u).occ := by
    intro u; unfold upd; split
    · rename_i e; subst e; exact ⟨rfl, rfl, rfl, rfl⟩
    · exact ⟨rfl, rfl, rfl, rfl⟩
  cases hi : (s.th t).slot i with
  | none =>
    refine ⟨_, rfl, d, upd a t (nextA (a t) (.load i)), R, adv_set ht _ rfl rfl, inv_skip h ht hi ?_ ?_ rfl rfl rfl hwait⟩
    · intro j ej; exact set_ne _ _ ej
    · intro j ej; rfl
  | some v =>
    dsimp only
    obtain ⟨e, he, he'⟩ := h.mm.inmap t i v hi
    rw [show s.mem.refLive v.ref = true by rw [← he']; exact h.mm.mapped e he, if_pos rfl]
    refine ⟨_, rfl, d, upd a t (nextA (a t) (.load i)), R, adv_set ht _ rfl rfl, ?_, ?_, ?_, ?_⟩
    · refine chk_next h ht (put_todo _ _ _ _ _) ?_
      intro u hu; exact put_ne _ _ _ _ _ _ hu
    · refine h.lk.congr rfl ?_ ?_
      · intro u j ty r
        unfold Holds
        dsimp only
        by_cases c : u = t ∧ j = i
        · obtain ⟨rfl, rfl⟩ := c
          rw [put_slot, hsi, hi]
          cases ty <;> simp [SA.has]
        · rw [put_slot_ne _ _ _ _ _ _ _ c, hsl u j c]
      · intro u
        by_cases eu : u = t
        · left; rw [eu]; exact hwait
        · right; exact put_ne _ _ _ _ _ _ eu
    · refine h.ct.congr rfl ?_ (fun u => (hrest u).2.1) (fun u => (hrest u).2.2.1)
      intro u j
      dsimp only
      by_cases c : u = t ∧ j = i
      · obtain ⟨rfl, rfl⟩ := c
        rw [put_slot, hi]; simp
      · rw [put_slot_ne _ _ _ _ _ _ _ c]
    · refine h.mm.slot rfl (t := t) (i := i) (put_slot _ _ _ _ _) ?_ ?_ (fun u => (hrest u).1) ?_ ?_ hsl ⟨e, he, he'⟩
        (.inr ?_)
      · intro u j c; exact put_slot_ne _ _ _ _ _ _ _ c
      · intro u; exact put_gone _ _ _ _ _ _
      · rw [(hrest t).2.2.2]; exact h.mm.occ t i v hi
      · intro u j _; rw [(hrest u).2.2.2]
      · rw [hsi]; exact ⟨rfl, rfl, hlk⟩

/-- What a step that changes only what is known of one pointer leaves as it was. -/
theorem ptr_rest {single n s d a R} (h : Inv single n s d a R) {t x k i} (ht : (s.th t).todo = x :: k)
    (hx : ∀ i ty, x ≠ .lock i ty) (m : Mem)
    (hn : ∃ p, nextA (a t) x = (a t).set i { (a t).sl i with p := p }) :
    (∀ u, check single (upd a t (nextA (a t) x) u) (done s t k u).todo) ∧
    Lk n { s with mem := m, th := done s t k } d (upd a t (nextA (a t) x)) ∧
    Ct { s with mem := m, th := done s t k } (upd a t (nextA (a t) x)) R := by
  obtain ⟨p, hn⟩ := hn
  have hrest : ∀ u, (upd a t (nextA (a t) x) u).pend = (a u).pend ∧ (upd a t (nextA (a t) x) u).wr = (a u).wr ∧
      ∀ j ty, ((upd a t (nextA (a t) x) u).sl j).has ty = ((a u).sl j).has ty := by
    intro u; unfold upd; split
    · rename_i e; subst e
      rw [hn]
      refine ⟨rfl, rfl, ?_⟩
      intro j ty
      by_cases ej : j = i
      · subst ej; rw [set_same]; cases ty <;> rfl
      · rw [set_ne _ _ ej]
    · exact ⟨rfl, rfl, fun _ _ => rfl⟩
  refine ⟨?_, ?_, ?_⟩
  · refine chk_next h ht (done_todo s t k) ?_
    intro u hu; exact done_ne _ _ _ _ hu
  · refine h.lk.congr rfl ?_ ?_
    · intro u j ty r; unfold Holds; dsimp only; rw [done_slot, (hrest u).2.2]
    · intro u
      by_cases e : u = t
      · left
        subst e
        refine h.lk.awake ?_
        intro i ty k' e'
        rw [ht] at e'
        cases e'
        exact hx _ _ rfl
      · right; exact done_ne _ _ _ _ e
  · refine h.ct.congr rfl ?_ (fun u => (hrest u).1) (fun u => (hrest u).2.1)
    intro u j; dsimp only; rw [done_slot]

theorem step_swap {single n s d a R} (h : Inv single n s d a R) {t i k}
    (ht : (s.th t).todo = .swap i :: k) (w : Bool) : Goes single n s a t w := by
  obtain ⟨hms, hma, hcur⟩ := may_next h ht
  have hwait : s.locks.wait t = none := h.lk.awake (by intro i ty k e; rw [ht] at e; cases e)
  unfold Goes step
  rw [ht]
  dsimp only
  cases hi : (s.th t).slot i with
  | none =>
    refine ⟨_, rfl, d, upd a t (nextA (a t) (.swap i)), R, adv_set ht _ rfl rfl, inv_skip h ht hi ?_ ?_ rfl rfl rfl hwait⟩
    · intro j ej; exact set_ne _ _ ej
    · intro j ej; rfl
  | some v =>
    dsimp only
    obtain ⟨e, he, he'⟩ := h.mm.inmap t i v hi
    have hlv : s.mem.refLive v.ref = true := by rw [← he']; exact h.mm.mapped e he
    rw [hlv, if_pos rfl]
    obtain ⟨hptr, _⟩ := h.mm.cur t i v hi hcur
    obtain ⟨c1, c2, c3⟩ := ptr_rest (i := i) h ht (by intro i ty e; cases e)
      { s.mem with
        part := fun r => if r = v.ref then s.mem.next else s.mem.part r,
        partLive := fun p => p == s.mem.next || s.mem.partLive p,
        next := s.mem.next + 1 } ⟨.priv, rfl⟩
    have hsl : ∀ u j, ¬ (u = t ∧ j = i) → (upd a t (nextA (a t) (.swap i)) u).sl j = (a u).sl j := by
      intro u j c
      by_cases e : u = t
      · subst e; rw [upd_same]; exact set_ne _ _ (fun e => c ⟨rfl, e⟩)
      · rw [upd_ne _ _ e]
    have hsi : (upd a t (nextA (a t) (.swap i)) t).sl i = { (a t).sl i with p := .priv } := by
      rw [upd_same]; exact set_same _ _ _
    have hrest : ∀ u, (upd a t (nextA (a t) (.swap i)) u).gone = (a u).gone ∧
        (upd a t (nextA (a t) (.swap i)) u).occ = (a u).occ := by
      intro u; unfold upd; split
      · rename_i e; subst e; exact ⟨rfl, rfl⟩
      · exact ⟨rfl, rfl⟩
    -- no other variable has this reference with a lock
    have hothers : ∀ u j x, (s.th u).slot j = some x → ((a u).sl j).s = true ∨ ((a u).sl j).a = true → x.ref = v.ref →
        u = t ∧ j = i := by
      intro u j x ex hl er
      rcases hl with hl | hl
      · exact h.lk.excl (ty := .service) (r := v.ref) ⟨x, ex, er, hl⟩ ⟨v, hi, rfl, hms⟩
      · exact h.lk.excl (ty := .access) (r := v.ref) ⟨x, ex, er, hl⟩ ⟨v, hi, rfl, hma⟩
    have hpl : ∀ r, s.mem.refLive r = true → s.mem.part r ≠ s.mem.next := by
      intro r hr
      have := h.mm.pfresh _ (h.mm.plive r hr)
      omega
    refine ⟨_, rfl, d, upd a t (nextA (a t) (.swap i)), R, adv_set ht _ rfl rfl, c1, c2, c3, ?_⟩
    refine ⟨?_, h.mm.mapped, ?_, ?_, ?_, ?_, ?_, ?_, ?_, ?_, ?_⟩ <;> dsimp only
    · intro u j x ex; rw [done_slot] at ex; rw [(hrest u).2]; exact h.mm.occ u j x ex
    · intro u j x ex; rw [done_slot] at ex; exact h.mm.inmap u j x ex
    · intro u r er
      rw [done_gone] at er
      obtain ⟨h1, h2, h3, h4⟩ := h.mm.gone u r er
      rw [(hrest u).1]
      exact ⟨h1, h2, h3, fun u' e' => by rw [done_gone] at e'; exact h4 u' e'⟩
    · intro r hr
      by_cases c : r = v.ref
      · simp [c]
      · simp [c, h.mm.plive r hr]
    · intro r q hr hq e
      by_cases c : r = v.ref <;> by_cases c' : q = v.ref
      · rw [c, c']
      · rw [if_pos c, if_neg c'] at e; exact absurd e.symm (hpl q hq)
      · rw [if_neg c, if_pos c'] at e; exact absurd e (hpl r hr)
      · rw [if_neg c, if_neg c'] at e; exact h.mm.pinj r q hr hq e
    · intro r hr; have := h.mm.rfresh r hr; omega
    · intro p hp
      simp only [Bool.or_eq_true, beq_iff_eq] at hp
      rcases hp with hp | hp
      · omega
      · have := h.mm.pfresh p hp; omega
    · intro u j x ex ec
      rw [done_slot] at ex
      by_cases c : u = t ∧ j = i
      · obtain ⟨rfl, rfl⟩ := c
        rw [hsi] at ec; cases ec
      · rw [hsl u j c] at ec ⊢
        obtain ⟨h1, h2⟩ := h.mm.cur u j x ex ec
        rw [if_neg (fun er => c (hothers u j x ex h2 er))]
        exact ⟨h1, h2⟩
    · intro u j x ex ec
      rw [done_slot] at ex
      by_cases c : u = t ∧ j = i
      · obtain ⟨rfl, rfl⟩ := c
        rw [hi] at ex; cases ex
        rw [hsi]
        refine ⟨hms, _, hptr, ?_, ?_⟩
        · simp [h.mm.plive _ hlv]
        · intro r hr e
          by_cases c : r = v.ref
          · rw [if_pos c] at e; exact hpl _ hlv e.symm
          · rw [if_neg c] at e; exact c (h.mm.pinj r v.ref hr hlv e)
      · rw [hsl u j c] at ec ⊢
        obtain ⟨h1, o, h2, h3, h4⟩ := h.mm.priv u j x ex ec
        refine ⟨h1, o, h2, by simp [h3], ?_⟩
        intro r hr e
        by_cases c : r = v.ref
        · rw [if_pos c] at e; have := h.mm.pfresh o h3; omega
        · rw [if_neg c] at e; exact h4 r hr e
    · intro u j x u' j' x' ex ec ex' ec' g
      rw [done_slot] at ex ex'
      by_cases c : u = t ∧ j = i <;> by_cases c' : u' = t ∧ j' = i
      · exact ⟨c.1.trans c'.1.symm, c.2.trans c'.2.symm⟩
      · rw [hsl u' j' c'] at ec'
        obtain ⟨_, o, h2, h3, h4⟩ := h.mm.priv u' j' x' ex' ec'
        rw [c.1, c.2, hi] at ex
        cases ex
        rw [hptr, h2] at g
        cases g
        exact absurd rfl (h4 v.ref hlv)
      · rw [hsl u j c] at ec
        obtain ⟨_, o, h2, h3, h4⟩ := h.mm.priv u j x ex ec
        rw [c'.1, c'.2, hi] at ex'
        cases ex'
        rw [hptr, h2] at g
        cases g
        exact absurd rfl (h4 v.ref hlv)
      · rw [hsl u j c] at ec
        rw [hsl u' j' c'] at ec'
        exact h.mm.privs u j x u' j' x' ex ec ex' ec' g

theorem step_free {single n s d a R} (h : Inv single n s d a R) {t i k}
    (ht : (s.th t).todo = .free i :: k) (w : Bool) : Goes single n s a t w := by
  have hpriv : ((a t).sl i).p = .priv := may_next h ht
  have hwait : s.locks.wait t = none := h.lk.awake (by intro i ty k e; rw [ht] at e; cases e)
  unfold Goes step
  rw [ht]
  dsimp only
  cases hi : (s.th t).slot i with
  | none =>
    refine ⟨_, rfl, d, upd a t (nextA (a t) (.free i)), R, adv_set ht _ rfl rfl, inv_skip h ht hi ?_ ?_ rfl rfl rfl hwait⟩
    · intro j ej; exact set_ne _ _ ej
    · intro j ej; rfl
  | some v =>
    dsimp only
    obtain ⟨_, o, hptr, hlo, hno⟩ := h.mm.priv t i v hi hpriv
    rw [hptr]
    dsimp only
    rw [hlo, if_pos rfl]
    obtain ⟨c1, c2, c3⟩ := ptr_rest (i := i) h ht (by intro i ty e; cases e) (freePart s.mem o) ⟨.no, rfl⟩
    have hsl : ∀ u j, ¬ (u = t ∧ j = i) → (upd a t (nextA (a t) (.free i)) u).sl j = (a u).sl j := by
      intro u j c
      by_cases e : u = t
      · subst e; rw [upd_same]; exact set_ne _ _ (fun e => c ⟨rfl, e⟩)
      · rw [upd_ne _ _ e]
    have hsi : (upd a t (nextA (a t) (.free i)) t).sl i = { (a t).sl i with p := .no } := by
      rw [upd_same]; exact set_same _ _ _
    have hrest : ∀ u, (upd a t (nextA (a t) (.free i)) u).gone = (a u).gone ∧
        (upd a t (nextA (a t) (.free i)) u).occ = (a u).occ := by
      intro u; unfold upd; split
      · rename_i e; subst e; exact ⟨rfl, rfl⟩
      · exact ⟨rfl, rfl⟩
    refine ⟨_, rfl, d, upd a t (nextA (a t) (.free i)), R, adv_set ht _ rfl rfl, c1, c2, c3, ?_⟩
    refine ⟨?_, h.mm.mapped, ?_, ?_, ?_, h.mm.pinj, h.mm.rfresh, ?_, ?_, ?_, ?_⟩ <;> dsimp only [freePart]
    · intro u j x ex; rw [done_slot] at ex; rw [(hrest u).2]; exact h.mm.occ u j x ex
    · intro u j x ex; rw [done_slot] at ex; exact h.mm.inmap u j x ex
    · intro u r er
      rw [done_gone] at er
      obtain ⟨h1, h2, h3, h4⟩ := h.mm.gone u r er
      rw [(hrest u).1]
      exact ⟨h1, h2, h3, fun u' e' => by rw [done_gone] at e'; exact h4 u' e'⟩
    · intro r hr
      simp [h.mm.plive r hr, hno r hr]
    · intro p hp
      simp only [Bool.and_eq_true] at hp
      exact h.mm.pfresh p hp.2
    · intro u j x ex ec
      rw [done_slot] at ex
      by_cases c : u = t ∧ j = i
      · obtain ⟨rfl, rfl⟩ := c
        rw [hsi] at ec; cases ec
      · rw [hsl u j c] at ec ⊢
        exact h.mm.cur u j x ex ec
    · intro u j x ex ec
      rw [done_slot] at ex
      by_cases c : u = t ∧ j = i
      · obtain ⟨rfl, rfl⟩ := c
        rw [hsi] at ec; cases ec
      · rw [hsl u j c] at ec ⊢
        obtain ⟨h1, o', h2, h3, h4⟩ := h.mm.priv u j x ex ec
        refine ⟨h1, o', h2, ?_, h4⟩
        have : o' ≠ o := by
          intro e
          exact c (h.mm.privs u j x t i v ex ec hi hpriv (by rw [h2, hptr, e]))
        simp [h3, this]
    · intro u j x u' j' x' ex ec ex' ec' g
      rw [done_slot] at ex ex'
      by_cases c : u = t ∧ j = i
      · rw [c.1, c.2, hsi] at ec; cases ec
      · by_cases c' : u' = t ∧ j' = i
        · rw [c'.1, c'.2, hsi] at ec'; cases ec'
        · rw [hsl u j c] at ec
          rw [hsl u' j' c'] at ec'
          exact h.mm.privs u j x u' j' x' ex ec ex' ec' g

/-- What a step that changes only what is known of the removed reference leaves as
it was. -/
theorem gone_rest {single n s d a R} (h : Inv single n s d a R) {t x k} (ht : (s.th t).todo = x :: k)
    (hx : ∀ i ty, x ≠ .lock i ty) (m : Mem) (g : Option Nat)
    (hn : ∃ b, nextA (a t) x = { a t with gone := b }) :
    (∀ u, check single (upd a t (nextA (a t) x) u) (setTh s t { s.th t with todo := k, gone := g } u).todo) ∧
    Lk n { s with mem := m, th := setTh s t { s.th t with todo := k, gone := g } } d (upd a t (nextA (a t) x)) ∧
    Ct { s with mem := m, th := setTh s t { s.th t with todo := k, gone := g } } (upd a t (nextA (a t) x)) R := by
  obtain ⟨b, hn⟩ := hn
  have hrest : ∀ u, (upd a t (nextA (a t) x) u).pend = (a u).pend ∧ (upd a t (nextA (a t) x) u).wr = (a u).wr ∧
      (upd a t (nextA (a t) x) u).sl = (a u).sl := by
    intro u; unfold upd; split
    · rename_i e; subst e; rw [hn]; exact ⟨rfl, rfl, rfl⟩
    · exact ⟨rfl, rfl, rfl⟩
  have hslot : ∀ u, (setTh s t { s.th t with todo := k, gone := g } u).slot = (s.th u).slot := by
    intro u; unfold setTh; split
    · rename_i e; subst e; rfl
    · rfl
  refine ⟨?_, ?_, ?_⟩
  · refine chk_next h ht ?_ ?_
    · rw [setTh_same]
    · intro u hu; exact setTh_ne _ _ hu
  · refine h.lk.congr rfl ?_ ?_
    · intro u j ty r; unfold Holds; dsimp only; rw [hslot, (hrest u).2.2]
    · intro u
      by_cases e : u = t
      · left
        subst e
        refine h.lk.awake ?_
        intro i ty k' e'
        rw [ht] at e'
        cases e'
        exact hx _ _ rfl
      · right; exact setTh_ne _ _ e
  · refine h.ct.congr rfl ?_ (fun u => (hrest u).1) (fun u => (hrest u).2.1)
    intro u j; dsimp only; rw [hslot]

/-- Nothing is removed: only what is known changes. -/
theorem gone_none {single n s d a R} (h : Inv single n s d a R) {t x k} (ht : (s.th t).todo = x :: k)
    (hx : ∀ i ty, x ≠ .lock i ty) (hn : ∃ b, nextA (a t) x = { a t with gone := b } ∧ ((s.th t).gone ≠ none → b = true)) :
    Inv single n { s with th := done s t k } d (upd a t (nextA (a t) x)) R := by
  obtain ⟨b, hn, hb⟩ := hn
  obtain ⟨c1, c2, c3⟩ := gone_rest h ht hx s.mem (s.th t).gone ⟨b, hn⟩
  refine ⟨c1, c2, c3, ?_⟩
  have hrest : ∀ u, (upd a t (nextA (a t) x) u).sl = (a u).sl ∧ (upd a t (nextA (a t) x) u).occ = (a u).occ := by
    intro u; unfold upd; split
    · rename_i e; subst e; rw [hn]; exact ⟨rfl, rfl⟩
    · exact ⟨rfl, rfl⟩
  refine ⟨?_, h.mm.mapped, ?_, ?_, h.mm.plive, h.mm.pinj, h.mm.rfresh, h.mm.pfresh, ?_, ?_, ?_⟩ <;> dsimp only
  · intro u j y ey; rw [done_slot] at ey; rw [(hrest u).2]; exact h.mm.occ u j y ey
  · intro u j y ey; rw [done_slot] at ey; exact h.mm.inmap u j y ey
  · intro u r er
    rw [done_gone] at er
    obtain ⟨h1, h2, h3, h4⟩ := h.mm.gone u r er
    refine ⟨?_, h2, h3, fun u' e' => by rw [done_gone] at e'; exact h4 u' e'⟩
    by_cases e : u = t
    · subst e; rw [upd_same, hn]; exact hb (by rw [er]; simp)
    · rw [upd_ne _ _ e]; exact h1
  · intro u j y ey ec
    rw [done_slot] at ey
    rw [(hrest u).1] at ec ⊢
    exact h.mm.cur u j y ey ec
  · intro u j y ey ec
    rw [done_slot] at ey
    rw [(hrest u).1] at ec ⊢
    exact h.mm.priv u j y ey ec
  · intro u j y u' j' y' ey ec ey' ec' g
    rw [done_slot] at ey ey'
    rw [(hrest u).1] at ec
    rw [(hrest u').1] at ec'
    exact h.mm.privs u j y u' j' y' ey ec ey' ec' g

theorem step_remove {single n s d a R} (h : Inv single n s d a R) {t id b k}
    (ht : (s.th t).todo = .remove id b :: k) (w : Bool) : Goes single n s a t w := by
  obtain ⟨hwr, hgf⟩ := may_next h ht
  have hx : ∀ i ty, Instr.remove id b ≠ .lock i ty := by intro i ty e; cases e
  have hempty := h.ct.empty hwr
  have hgn : (s.th t).gone = none := by
    cases e : (s.th t).gone with
    | none => rfl
    | some r => have := (h.mm.gone t r e).1; rw [hgf] at this; cases this
  unfold Goes step
  rw [ht]
  dsimp only
  have hskip : Inv single n { s with th := done s t k } d (upd a t (nextA (a t) (.remove id b))) R :=
    gone_none h ht hx ⟨true, rfl, fun _ => rfl⟩
  cases hf : s.mem.map.find? (fun e => e.min ≤ id ∧ id ≤ e.max) with
  | none => exact ⟨_, rfl, _, _, _, adv_set ht _ rfl rfl, hskip⟩
  | some e =>
    dsimp only
    have he := List.mem_of_find?_eq_some hf
    have hl := h.mm.mapped e he
    rw [hl, h.mm.plive _ hl]
    simp only [Bool.and_self, if_true]
    cases b with
    | false => exact ⟨_, rfl, _, _, _, adv_set ht _ rfl rfl, hskip⟩
    | true =>
      simp only [if_true]
      obtain ⟨c1, c2, c3⟩ := gone_rest h ht hx { s.mem with map := s.mem.map.filter (fun x => x.ref ≠ e.ref) }
        (some e.ref) ⟨true, rfl⟩
      refine ⟨_, rfl, d, upd a t (nextA (a t) (.remove id true)), R, adv_set ht _ rfl rfl, c1, c2, c3, ?_⟩
      have hslot : ∀ u j, (setTh s t { s.th t with todo := k, gone := some e.ref } u).slot j = none := by
        intro u j; unfold setTh; split
        · exact hempty t j
        · exact hempty u j
      refine ⟨?_, ?_, ?_, ?_, h.mm.plive, h.mm.pinj, h.mm.rfresh, h.mm.pfresh, ?_, ?_, ?_⟩ <;> dsimp only
      · intro u j y ey; rw [hslot] at ey; cases ey
      · intro x hx'
        exact h.mm.mapped x (List.mem_filter.1 hx').1
      · intro u j y ey; rw [hslot] at ey; cases ey
      · intro u r er
        by_cases eu : u = t
        · subst eu
          rw [setTh_same] at er
          cases er
          refine ⟨by rw [upd_same]; rfl, hl, ?_, ?_⟩
          · intro x hx'
            simpa using (List.mem_filter.1 hx').2
          · intro u' e'
            by_cases eu' : u' = u
            · exact eu'
            · rw [setTh_ne _ _ eu'] at e'
              exact absurd rfl ((h.mm.gone u' _ e').2.2.1 e he)
        · rw [setTh_ne _ _ eu] at er
          obtain ⟨h1, h2, h3, h4⟩ := h.mm.gone u r er
          refine ⟨by rw [upd_ne _ _ eu]; exact h1, h2, ?_, ?_⟩
          · intro x hx'; exact h3 x (List.mem_filter.1 hx').1
          · intro u' e'
            by_cases eu' : u' = t
            · subst eu'
              rw [setTh_same] at e'
              cases e'
              exact absurd rfl (h3 e he)
            · rw [setTh_ne _ _ eu'] at e'
              exact h4 u' e'
      · intro u j y ey; rw [hslot] at ey; cases ey
      · intro u j y ey; rw [hslot] at ey; cases ey
      · intro u j y _ _ _ ey; rw [hslot] at ey; cases ey

theorem step_freeRef {single n s d a R} (h : Inv single n s d a R) {t k}
    (ht : (s.th t).todo = .freeRef :: k) (w : Bool) : Goes single n s a t w := by
  have hx : ∀ i ty, Instr.freeRef ≠ .lock i ty := by intro i ty e; cases e
  unfold Goes step
  rw [ht]
  dsimp only
  cases hg : (s.th t).gone with
  | none => exact ⟨_, rfl, _, _, _, adv_set ht _ rfl rfl, gone_none h ht hx ⟨false, rfl, fun c => absurd hg c⟩⟩
  | some r =>
    dsimp only
    obtain ⟨h1, h2, h3, h4⟩ := h.mm.gone t r hg
    rw [h2, h.mm.plive _ h2]
    simp only [Bool.and_self, if_true]
    obtain ⟨c1, c2, c3⟩ := gone_rest h ht hx
      { freePart s.mem (s.mem.part r) with refLive := fun q => q != r && s.mem.refLive q } none ⟨false, rfl⟩
    refine ⟨_, rfl, d, upd a t (nextA (a t) .freeRef), R, adv_set ht _ rfl rfl, c1, c2, c3, ?_⟩
    have hslot : ∀ u, (setTh s t { s.th t with todo := k, gone := none } u).slot = (s.th u).slot := by
      intro u; unfold setTh; split
      · rename_i e; subst e; rfl
      · rfl
    have hrest : ∀ u, (upd a t (nextA (a t) .freeRef) u).sl = (a u).sl ∧ (upd a t (nextA (a t) .freeRef) u).occ = (a u).occ := by
      intro u; unfold upd; split
      · rename_i e; subst e; exact ⟨rfl, rfl⟩
      · exact ⟨rfl, rfl⟩
    have hlive : ∀ q, (q != r && s.mem.refLive q) = true ↔ q ≠ r ∧ s.mem.refLive q = true := by intro q; simp
    refine ⟨?_, ?_, ?_, ?_, ?_, ?_, ?_, ?_, ?_, ?_, ?_⟩ <;> dsimp only [freePart]
    · intro u j y ey; rw [hslot] at ey; rw [(hrest u).2]; exact h.mm.occ u j y ey
    · intro x hx'; exact (hlive _).2 ⟨h3 x hx', h.mm.mapped x hx'⟩
    · intro u j y ey; rw [hslot] at ey; exact h.mm.inmap u j y ey
    · intro u q eq
      by_cases eu : u = t
      · subst eu; rw [setTh_same] at eq; cases eq
      · rw [setTh_ne _ _ eu] at eq
        obtain ⟨g1, g2, g3, g4⟩ := h.mm.gone u q eq
        refine ⟨by rw [upd_ne _ _ eu]; exact g1, (hlive q).2 ⟨?_, g2⟩, g3, ?_⟩
        · intro e; subst e; exact eu (h4 u eq)
        · intro u' e'
          by_cases eu' : u' = t
          · subst eu'; rw [setTh_same] at e'; cases e'
          · rw [setTh_ne _ _ eu'] at e'; exact g4 u' e'
    · intro q hq
      obtain ⟨q1, q2⟩ := (hlive q).1 hq
      have : s.mem.part q ≠ s.mem.part r := fun e => q1 (h.mm.pinj q r q2 h2 e)
      simp [this, h.mm.plive q q2]
    · intro q q' hq hq' e
      exact h.mm.pinj q q' ((hlive q).1 hq).2 ((hlive q').1 hq').2 e
    · intro q hq; exact h.mm.rfresh q ((hlive q).1 hq).2
    · intro p hp
      simp only [Bool.and_eq_true] at hp
      exact h.mm.pfresh p hp.2
    · intro u j y ey ec
      rw [hslot] at ey
      rw [(hrest u).1] at ec ⊢
      exact h.mm.cur u j y ey ec
    · intro u j y ey ec
      rw [hslot] at ey
      rw [(hrest u).1] at ec ⊢
      obtain ⟨g1, o, g2, g3, g4⟩ := h.mm.priv u j y ey ec
      refine ⟨g1, o, g2, ?_, fun q hq => g4 q ((hlive q).1 hq).2⟩
      have : o ≠ s.mem.part r := fun e => g4 r h2 e.symm
      simp [this, g3]
    · intro u j y u' j' y' ey ec ey' ec' g
      rw [hslot] at ey ey'
      rw [(hrest u).1] at ec
      rw [(hrest u').1] at ec'
      exact h.mm.privs u j y u' j' y' ey ec ey' ec' g

/-! ### Runs -/

theorem step_goes {single n s d a R} (h : Inv single n s d a R) {t : Nat} (htn : t < n) (hnest : ¬ Nests s t)
    (w : Bool) : Goes single n s a t w := by
  cases ht : (s.th t).todo with
  | nil => exact ⟨s, by unfold step; rw [ht], d, a, R, .inl ⟨rfl, rfl⟩, h⟩
  | cons x k =>
    cases x with
    | shared => exact step_shared h ht w
    | exclusive => exact step_exclusive h ht w
    | release => exact step_release h ht w
    | find i id how => exact step_find h ht w
    | lock i ty => exact step_lock h ht htn hnest w
    | unlock i ty => exact step_unlock h ht w
    | leave i => exact step_leave h ht w
    | load i => exact step_load h ht w
    | use i => exact step_use h ht w
    | swap i => exact step_swap h ht w
    | free i => exact step_free h ht w
    | look => exact step_look h ht w
    | remove id b => exact step_remove h ht w
    | freeRef => exact step_freeRef h ht w

/-- Threads that use one variable at a time do not nest. -/
theorem single_calm {n s d a R} (h : Inv true n s d a R) (t : Nat) : ¬ Nests s t := by
  rintro ⟨i, ty, k, v, ht, hs, hl⟩
  obtain ⟨_, hh, hj⟩ := may_next h ht
  have h1 := (h.lk.locks.holder t (lockOf v.ref ty)).1 hl
  obtain ⟨j, x, r, ⟨v', e1, e2, e3⟩, e⟩ := (h.lk.hold _ _).1 h1
  obtain ⟨e4, e5⟩ := lockOf_inj e
  subst e5
  have ho := h.mm.occ t j v' e1
  have : j = i := by
    by_cases c : j = i
    · exact c
    · rw [hj rfl j c] at ho; cases ho
  subst this
  rw [hh] at e3; cases e3

theorem run_calm {single n} (sched : List (Nat × Bool)) : ∀ {s d a R}, Inv single n s d a R → (∀ x ∈ sched, x.1 < n) →
    Calm s sched → ∃ s', run s sched = .ok s' := by
  induction sched with
  | nil => intro s d a R _ _ _; exact ⟨s, rfl⟩
  | cons x l ih =>
    intro s d a R h hn hc
    obtain ⟨t, w⟩ := x
    obtain ⟨s', e, d', a', R', _, h'⟩ := step_goes h (hn _ (List.mem_cons_self ..)) hc.1 w
    rw [run, e, Res.bind_ok]
    exact ih h' (fun x hx => hn x (List.mem_cons_of_mem _ hx)) (hc.2 s' e)

theorem run_single {n} (sched : List (Nat × Bool)) : ∀ {s d a R}, Inv true n s d a R → (∀ x ∈ sched, x.1 < n) →
    ∃ s', run s sched = .ok s' := by
  induction sched with
  | nil => intro s d a R _ _; exact ⟨s, rfl⟩
  | cons x l ih =>
    intro s d a R h hn
    obtain ⟨t, w⟩ := x
    obtain ⟨s', e, d', a', R', _, h'⟩ := step_goes h (hn _ (List.mem_cons_self ..)) (single_calm h t) w
    rw [run, e, Res.bind_ok]
    exact ih h' (fun x hx => hn x (List.mem_cons_of_mem _ hx))

/-! ### Programs -/

/-- What is known between two calls, with the cursors `o` open and the records from
`lo` to `hi` in use. -/
structure At (o : List Nat) (lo hi : Nat) (a : TA) : Prop where
  pend : a.pend = false
  wr : a.wr = false
  gone : a.gone = false
  even : ∀ c, a.occ (2 * c) = true ↔ c ∈ o
  odd : ∀ c, a.occ (2 * c + 1) = true ↔ lo ≤ c ∧ c < hi
  cursor : ∀ c, c ∈ o → a.sl (2 * c) = ⟨false, true, .cur⟩
  record : ∀ c, lo ≤ c → c < hi → a.sl (2 * c + 1) = ⟨false, true, .cur⟩

def zero : TA := ⟨false, false, false, fun _ => false, fun _ => ⟨false, false, .no⟩⟩

theorem at_zero : At [] 0 0 zero := by
  refine ⟨rfl, rfl, rfl, ?_, ?_, ?_, ?_⟩
  · intro c; simp [zero]
  · intro c; simp [zero]
  · intro c h; cases h
  · intro c h1 h2; omega

theorem inv_start (single : Bool) (n : Nat) (prog : Nat → List Call)
    (h : ∀ t, check single zero ((prog t).flatMap Call.code)) :
    Inv single n (start prog) (fun _ _ => 0) (fun _ => zero) [] := by
  refine ⟨h, ⟨C31.inv_init n, ?_, ?_, ?_⟩, ⟨List.nodup_nil, rfl, ?_, ?_, ?_, ?_⟩, ?_⟩
  · intro t l
    simp only [Nat.zero_ne_one, false_iff]
    rintro ⟨i, ty, r, ⟨v, e, _⟩, _⟩
    cases e
  · rintro t i j ty r ⟨v, e, _⟩; cases e
  · intro t l b e; cases e
  · intro t i; simp [start]
  · intro t; simp [zero]
  · intro t; simp [start, Rwlock.init, zero]
  · intro t e; cases e
  · refine ⟨?_, ?_, ?_, ?_, ?_, ?_, ?_, ?_, ?_, ?_, ?_⟩
    · intro t i v e; cases e
    · intro e he; cases he
    · intro t i v e; cases e
    · intro t r e; cases e
    · intro r e; cases e
    · intro r q e; cases e
    · intro r e; cases e
    · intro r e; cases e
    · intro t i v e; cases e
    · intro t i v e; cases e
    · intro t i v u j w e; cases e

theorem At.one {o a} (h : At o 0 0 a) : a.occ 1 = false := by
  have := (h.odd 0)
  cases e : a.occ 1 with
  | false => rfl
  | true => have := this.1 e; omega

/-- With no cursor open no variable is in use. -/
theorem At.none {lo hi a} (h : At [] lo hi a) (hh : hi ≤ lo) (j : Nat) : a.occ j = false := by
  cases e : a.occ j with
  | false => rfl
  | true =>
    rcases (show j = 2 * (j / 2) ∨ j = 2 * (j / 2) + 1 by omega) with c | c
    · rw [c] at e; have := (h.even _).1 e; cases this
    · rw [c] at e; have := (h.odd _).1 e; omega

/-- After the use of variable 1. -/
theorem At.tmp {o a a'} (h : At o 0 0 a) (h1 : a'.pend = false) (h2 : a'.wr = false) (h3 : a'.gone = false)
    (h4 : ∀ j, j ≠ 1 → a'.occ j = a.occ j ∧ a'.sl j = a.sl j) (h5 : a'.occ 1 = false) : At o 0 0 a' := by
  refine ⟨h1, h2, h3, ?_, ?_, ?_, ?_⟩
  · intro c; rw [(h4 _ (by omega)).1]; exact h.even c
  · intro c
    by_cases e : c = 0
    · subst e; simp [h5]
    · rw [(h4 _ (by omega)).1]; exact h.odd c
  · intro c hc; rw [(h4 _ (by omega)).2]; exact h.cursor c hc
  · intro c _ hc; omega

theorem chk_foreach {single o a rest} (h : At o 0 0 a) (hs : single = true → o = []) (id : Nat)
    (hr : ∀ a', At o 0 0 a' → check single a' rest) : check single a (Instr.engine_foreach 1 id ++ rest) := by
  have h1 := h.one
  have hj : single = true → ∀ j, a.occ j = false := by
    intro e; have := hs e; subst this; exact h.none (by omega)
  simp only [Instr.engine_foreach, Instr.engine_lock, Instr.engine_unlock, List.cons_append, List.nil_append, check]
  refine ⟨⟨h.pend, h.wr⟩, ⟨rfl, h.wr, h1⟩, ⟨?_, ?_, ?_⟩, ⟨?_, ?_⟩, ⟨?_, ?_, ?_⟩, hr _ (h.tmp ?_ ?_ ?_ ?_ ?_)⟩ <;>
    simp [nextA, TA.set, TA.setOcc, SA.has, h.wr, h.gone]
  all_goals first
    | (intro e j hj'; simp [hj', hj e])
    | (intro j hj'; simp [hj'])

theorem chk_file {single o a rest} (h : At o 0 0 a) (hs : single = true → o = []) (id : Nat) (stop : Bool)
    (hr : ∀ a', At o 0 0 a' → check single a' rest) : check single a (Instr.engine_file 1 id stop ++ rest) := by
  have h1 := h.one
  have hj : single = true → ∀ j, a.occ j = false := by
    intro e; have := hs e; subst this; exact h.none (by omega)
  cases stop
  · simp only [Instr.engine_file, Instr.engine_lock, Instr.engine_unlock, List.cons_append, List.nil_append, check,
      Bool.false_eq_true, if_false]
    refine ⟨⟨h.pend, h.wr⟩, ⟨rfl, h.wr, h1⟩, ⟨?_, ?_, ?_⟩, ⟨?_, ?_⟩, ?_, ⟨?_, ?_, ?_⟩, ?_, ⟨?_, ?_⟩, ⟨?_, ?_⟩, ⟨?_, ?_, ?_⟩,
        hr _ (h.tmp ?_ ?_ ?_ ?_ ?_)⟩ <;>
      simp [nextA, TA.set, TA.setOcc, SA.has, may, h.wr, h.gone]
    all_goals first
      | (intro e j hj'; simp [hj', hj e])
      | (intro j hj'; simp [hj'])
  · simp only [Instr.engine_file, Instr.engine_lock, Instr.engine_unlock, List.cons_append, List.nil_append, check,
      if_true]
    refine ⟨⟨h.pend, h.wr⟩, ⟨rfl, h.wr, h1⟩, ⟨?_, ?_, ?_⟩, ⟨?_, ?_⟩, ?_, ⟨?_, ?_⟩, ⟨?_, ?_, ?_⟩,
        hr _ (h.tmp ?_ ?_ ?_ ?_ ?_)⟩ <;>
      simp [nextA, TA.set, TA.setOcc, SA.has, may, h.wr, h.gone]
    all_goals first
      | (intro e j hj'; simp [hj', hj e])
      | (intro j hj'; simp [hj'])

theorem chk_refresh {single o a rest} (h : At o 0 0 a) (hs : single = true → o = []) (id : Nat) (stop : Instr.Stop)
    (hr : ∀ a', At o 0 0 a' → check single a' rest) : check single a (Instr.refresh_run 1 id stop ++ rest) := by
  have h1 := h.one
  have hj : single = true → ∀ j, a.occ j = false := by
    intro e; have := hs e; subst this; exact h.none (by omega)
  cases stop
  all_goals
    simp only [Instr.refresh_run, Instr.engine_lock, Instr.engine_unlock, List.cons_append, List.nil_append, check, may]
    repeat' apply And.intro
  all_goals first
    | exact h.pend
    | exact h.wr
    | exact h1
    | (refine hr _ (h.tmp ?_ ?_ ?_ ?_ ?_) <;> simp [nextA, TA.set, TA.setOcc, h.wr, h.gone]; intro j hj'; simp [hj']; done)
    | (simp [nextA, TA.set, TA.setOcc, SA.has, h.wr]; done)
    | (intro e j hj'; simp [nextA, TA.set, TA.setOcc, hj', hj e]; done)

theorem chk_drop {single o a rest} (h : At o 0 0 a) (id : Nat) (b : Bool)
    (hr : ∀ a', At o 0 0 a' → check single a' rest) : check single a (Instr.engine_drop_reference id b ++ rest) := by
  simp only [Instr.engine_drop_reference, List.cons_append, List.nil_append, check]
  refine ⟨⟨h.pend, h.wr⟩, ⟨?_, ?_⟩, ?_, ?_, hr _ (h.tmp ?_ ?_ ?_ ?_ ?_)⟩ <;> simp [nextA, may, h.gone, h.pend, h.one]

theorem chk_look {single o a rest} (h : At o 0 0 a)
    (hr : ∀ a', At o 0 0 a' → check single a' rest) : check single a (Instr.engine_look ++ rest) := by
  simp only [Instr.engine_look, List.cons_append, List.nil_append, check]
  refine ⟨⟨h.pend, h.wr⟩, ?_, ?_, hr _ (h.tmp ?_ ?_ ?_ ?_ ?_)⟩ <;> simp [nextA, may, h.gone, h.wr, h.one]

theorem chk_fill {single o a rest} (h : At o 0 0 a) (id min max : Nat)
    (hr : ∀ a', At o 0 0 a' → check single a' rest) : check single a (Instr.engine_fill 1 id min max ++ rest) := by
  have h1 := h.one
  simp only [Instr.engine_fill, List.cons_append, List.nil_append, check]
  refine ⟨⟨h.pend, h.wr⟩, ⟨rfl, h.wr, h1⟩, ⟨?_, ?_, ?_⟩, hr _ (h.tmp ?_ ?_ ?_ ?_ ?_)⟩ <;>
    simp [nextA, TA.set, TA.setOcc, h.wr, h.gone]
  intro j hj'; simp [hj']

/-! Cursors and records -/

/-- A cursor is opened. -/
theorem chk_open {single o a rest} (h : At o 0 0 a) {c : Nat} (hc : c ∉ o) (hs : single = true → o = []) (id : Nat)
    (hr : ∀ a', At (c :: o) 0 0 a' → check single a' rest) : check single a (Instr.cursor_open (2 * c) id ++ rest) := by
  have h1 : a.occ (2 * c) = false := by
    cases e : a.occ (2 * c) with
    | false => rfl
    | true => exact absurd ((h.even c).1 e) hc
  have hj : single = true → ∀ j, a.occ j = false := by
    intro e; have := hs e; subst this; exact h.none (by omega)
  simp only [Instr.cursor_open, Instr.engine_lock, List.cons_append, List.nil_append, check, may]
  refine ⟨⟨h.pend, h.wr⟩, ⟨rfl, h.wr, h1⟩, ⟨?_, ?_, ?_⟩, ⟨?_, ?_⟩, ?_, hr _ ⟨?_, ?_, ?_, ?_, ?_, ?_, ?_⟩⟩
  case refine_8 =>
    simp [nextA, TA.set, TA.setOcc, h.wr]
  case refine_10 =>
    intro d
    have := h.even d
    by_cases e : d = c
    · subst e; simp [nextA, TA.set, TA.setOcc]
    · have : 2 * d ≠ 2 * c := by omega
      simp [nextA, TA.set, TA.setOcc, e, this, h.even d]
  case refine_11 =>
    intro d
    have : 2 * d + 1 ≠ 2 * c := by omega
    simp only [nextA, TA.set, TA.setOcc, this, if_false]
    exact h.odd d
  case refine_12 =>
    intro d hd
    by_cases e : d = c
    · subst e; simp [nextA, TA.set, TA.setOcc]
    · have e2 : 2 * d ≠ 2 * c := by omega
      have hd' : d ∈ o := by simpa [e] using hd
      simp [nextA, TA.set, TA.setOcc, e2, h.cursor d hd']
  case refine_13 => intro d _ hd; omega
  all_goals first
    | (simp [nextA, TA.set, TA.setOcc, SA.has, h.gone]; done)
    | (intro e j hj'; simp [nextA, TA.set, TA.setOcc, hj', hj e]; done)

/-- A cursor is closed. -/
theorem chk_close {single o a rest} (h : At o 0 0 a) {c : Nat} (hc : c ∈ o)
    (hr : ∀ a', At (o.filter (· ≠ c)) 0 0 a' → check single a' rest) :
    check single a (Instr.cursor_close (2 * c) ++ rest) := by
  have h1 := (h.even c).2 hc
  have h2 := h.cursor c hc
  simp only [Instr.cursor_close, Instr.engine_unlock, List.cons_append, List.nil_append, check, may]
  refine ⟨?_, ⟨?_, ?_⟩, ⟨?_, ?_, ?_⟩, hr _ ⟨?_, ?_, ?_, ?_, ?_, ?_, ?_⟩⟩
  case refine_10 =>
    intro d
    by_cases e : d = c
    · subst e; simp [nextA, TA.set, TA.setOcc]
    · have : 2 * d ≠ 2 * c := by omega
      simp [nextA, TA.set, TA.setOcc, e, this, h.even d]
  case refine_11 =>
    intro d
    have : 2 * d + 1 ≠ 2 * c := by omega
    simp only [nextA, TA.set, TA.setOcc, this, if_false]
    exact h.odd d
  case refine_12 =>
    intro d hd
    have hd' : d ∈ o ∧ d ≠ c := by simpa using hd
    have e2 : 2 * d ≠ 2 * c := by omega
    simp [nextA, TA.set, TA.setOcc, e2, h.cursor d hd'.1]
  case refine_13 => intro d _ hd; omega
  all_goals simp [nextA, TA.set, TA.setOcc, SA.has, h.gone, h.wr, h.pend, h1, h2]

theorem chk_read {single o a rest} (h : At o 0 0 a) {c : Nat} (hc : c ∈ o)
    (hr : ∀ a', At o 0 0 a' → check single a' rest) : check single a (Instr.cursor_use (2 * c) ++ rest) := by
  simp only [Instr.cursor_use, List.cons_append, List.nil_append, check, may]
  exact ⟨by rw [h.cursor c hc]; simp, hr _ h⟩

/-- A record is written. -/
theorem chk_write_one {single o hi a rest} (h : At o 0 hi a) (e : Nat × How) (hs : single = true → o = [] ∧ hi = 0)
    (hr : ∀ a', At o 0 (hi + 1) a' → check single a' rest) :
    check single a (Instr.write_one (2 * hi + 1) e ++ rest) := by
  have h1 : a.occ (2 * hi + 1) = false := by
    cases e : a.occ (2 * hi + 1) with
    | false => rfl
    | true => have := (h.odd hi).1 e; omega
  have hj : single = true → ∀ j, a.occ j = false := by
    intro e
    obtain ⟨e1, e2⟩ := hs e
    subst e1 e2
    exact h.none (by omega)
  simp only [Instr.write_one, Instr.engine_lock, List.cons_append, List.nil_append, check, may]
  refine ⟨⟨h.pend, h.wr⟩, ⟨rfl, h.wr, h1⟩, ⟨?_, ?_, ?_⟩, ⟨?_, ?_⟩, ?_, hr _ ⟨?_, ?_, ?_, ?_, ?_, ?_, ?_⟩⟩
  case refine_8 =>
    simp [nextA, TA.set, TA.setOcc, h.wr]
  case refine_10 =>
    intro d
    have : 2 * d ≠ 2 * hi + 1 := by omega
    simp only [nextA, TA.set, TA.setOcc, this, if_false]
    exact h.even d
  case refine_11 =>
    intro d
    by_cases e : d = hi
    · subst e; simp [nextA, TA.set, TA.setOcc]
    · have e2 : 2 * d + 1 ≠ 2 * hi + 1 := by omega
      simp only [nextA, TA.set, TA.setOcc, e2, if_false]
      rw [h.odd d]
      omega
  case refine_12 =>
    intro d hd
    have e2 : 2 * d ≠ 2 * hi + 1 := by omega
    simp only [nextA, TA.set, TA.setOcc, e2, if_false]
    exact h.cursor d hd
  case refine_13 =>
    intro d h3 h4
    by_cases e : d = hi
    · subst e; simp [nextA, TA.set, TA.setOcc]
    · have e2 : 2 * d + 1 ≠ 2 * hi + 1 := by omega
      simp only [nextA, TA.set, TA.setOcc, e2, if_false]
      exact h.record d h3 (by omega)
  all_goals first
    | (simp [nextA, TA.set, TA.setOcc, SA.has, h.gone]; done)
    | (intro e j hj'; simp [nextA, TA.set, TA.setOcc, hj', hj e]; done)

/-- A record is committed or rolled back: the first or the last one in use. -/
theorem chk_commit_one {single o lo hi lo' hi' i a rest} (h : At o lo hi a) (h1 : lo ≤ i) (h2 : i < hi)
    (hcase : (i = lo ∧ lo' = lo + 1 ∧ hi' = hi) ∨ (i + 1 = hi ∧ lo' = lo ∧ hi' = i))
    (hr : ∀ a', At o lo' hi' a' → check single a' rest) :
    check single a (Instr.commit_one (2 * i + 1) ++ rest) := by
  have h3 := (h.odd i).2 ⟨h1, h2⟩
  have h4 := h.record i h1 h2
  simp only [Instr.commit_one, Instr.engine_unlock, List.cons_append, List.nil_append, check, may]
  refine ⟨⟨?_, ?_⟩, ?_, ⟨?_, ?_⟩, ⟨?_, ?_, ?_⟩, hr _ ⟨?_, ?_, ?_, ?_, ?_, ?_, ?_⟩⟩
  case refine_12 =>
    intro d
    have : 2 * d ≠ 2 * i + 1 := by omega
    simp only [nextA, TA.set, TA.setOcc, this, if_false]
    exact h.even d
  case refine_13 =>
    intro d
    by_cases e : d = i
    · subst e; simp [nextA, TA.set, TA.setOcc]; omega
    · have e2 : 2 * d + 1 ≠ 2 * i + 1 := by omega
      simp only [nextA, TA.set, TA.setOcc, e2, if_false]
      rw [h.odd d]
      omega
  case refine_14 =>
    intro d hd
    have e2 : 2 * d ≠ 2 * i + 1 := by omega
    simp only [nextA, TA.set, TA.setOcc, e2, if_false]
    exact h.cursor d hd
  case refine_15 =>
    intro d h5 h6
    have e2 : 2 * d + 1 ≠ 2 * i + 1 := by omega
    simp only [nextA, TA.set, TA.setOcc, e2, if_false]
    exact h.record d (by omega) (by omega)
  all_goals simp [nextA, TA.set, TA.setOcc, SA.has, h.gone, h.wr, h.pend, h3, h4]

/-- No record in use any more. -/
theorem At.norm {o m a} (h : At o m m a) : At o 0 0 a := by
  refine ⟨h.pend, h.wr, h.gone, h.even, ?_, h.cursor, ?_⟩
  · intro c; rw [h.odd]; omega
  · intro c _ hc; omega

theorem chk_writes {single o rest} (es : List (Nat × How)) : ∀ {hi a}, At o 0 hi a →
    (single = true → o = [] ∧ hi = 0 ∧ es.length ≤ 1) →
    (∀ a', At o 0 (hi + es.length) a' → check single a' rest) → check single a (Instr.writes hi es ++ rest) := by
  induction es with
  | nil => intro hi a h _ hr; exact hr a h
  | cons e es ih =>
    intro hi a h hs hr
    rw [Instr.writes, List.append_assoc]
    refine chk_write_one h e (fun c => ⟨(hs c).1, (hs c).2.1⟩) ?_
    intro a' h'
    cases es with
    | nil => exact hr a' h'
    | cons e' es' =>
      refine ih h' ?_ ?_
      · intro c; have := (hs c).2.2; simp at this
      · intro a'' h''; exact hr a'' (by rw [List.length_cons (a := e), Nat.add_comm _ 1, ← Nat.add_assoc]; exact h'')

theorem chk_commits {single o rest} (m : Nat) : ∀ {lo a}, At o lo (lo + m) a →
    (∀ a', At o 0 0 a' → check single a' rest) → check single a (Instr.commits lo m ++ rest) := by
  induction m with
  | zero => intro lo a h hr; exact hr a h.norm
  | succ m ih =>
    intro lo a h hr
    rw [Instr.commits, List.append_assoc]
    refine chk_commit_one h (Nat.le_refl _) (by omega) (.inl ⟨rfl, rfl, rfl⟩) ?_
    intro a' h'
    exact ih (by rw [show lo + (m + 1) = lo + 1 + m by omega] at h'; exact h') hr

theorem chk_rollbacks {single o rest} (m : Nat) : ∀ {a}, At o 0 m a →
    (∀ a', At o 0 0 a' → check single a' rest) → check single a (Instr.rollbacks m ++ rest) := by
  induction m with
  | zero => intro a h hr; exact hr a h
  | succ m ih =>
    intro a h hr
    rw [Instr.rollbacks, List.append_assoc]
    exact chk_commit_one h (Nat.zero_le _) (by omega) (.inr ⟨rfl, rfl, rfl⟩) (fun a' h' => ih h' hr)

theorem chk_write {single o a rest} (h : At o 0 0 a) (es : List (Nat × How)) (back : Bool)
    (hs : single = true → o = [] ∧ es.length ≤ 1) (hr : ∀ a', At o 0 0 a' → check single a' rest) :
    check single a (Instr.engine_write es back ++ rest) := by
  rw [Instr.engine_write, List.append_assoc]
  refine chk_writes es h (fun c => ⟨(hs c).1, rfl, (hs c).2⟩) ?_
  intro a' h'
  rw [Nat.zero_add] at h'
  cases back
  · exact chk_commits es.length (lo := 0) (by rw [Nat.zero_add]; exact h') hr
  · exact chk_rollbacks es.length h' hr

/-- A program that uses its cursors as it should keeps what is asked. -/
theorem chk_proper (l : List Call) : ∀ {o a}, At o 0 0 a → Proper o l → check false a (l.flatMap Call.code) := by
  have no : ∀ {P : Prop}, false = true → P := fun e => by cases e
  induction l with
  | nil => intro o a _ _; trivial
  | cons x l ih =>
    intro o a h hp
    rw [List.flatMap_cons]
    cases x with
    | write es back => exact chk_write h es back no (fun a' h' => ih h' hp)
    | open_ c id => exact chk_open h hp.1 no id (fun a' h' => ih h' hp.2)
    | read c => exact chk_read h hp.1 (fun a' h' => ih h' hp.2)
    | move c id =>
      show check false a (Instr.cursor_close (2 * c) ++ Instr.cursor_open (2 * c) id ++ _)
      rw [List.append_assoc]
      refine chk_close h hp.1 ?_
      intro a' h'
      refine chk_open h' (by simp) no id ?_
      intro a'' h''
      refine ih (o := o) ?_ hp.2
      refine ⟨h''.pend, h''.wr, h''.gone, ?_, h''.odd, ?_, h''.record⟩
      · intro d
        rw [h''.even]
        have := hp.1
        by_cases e : d = c
        · subst e; simp [this]
        · simp [e]
      · intro d hd
        refine h''.cursor d ?_
        by_cases e : d = c
        · simp [e]
        · simp [e, hd]
    | close c => exact chk_close h hp.1 (fun a' h' => ih h' hp.2)
    | foreach_ id => exact chk_foreach h no id (fun a' h' => ih h' hp)
    | file id stop => exact chk_file h no id stop (fun a' h' => ih h' hp)
    | refresh id stop => exact chk_refresh h no id stop (fun a' h' => ih h' hp)
    | drop id b => exact chk_drop h id b (fun a' h' => ih h' hp)
    | fill id lo hi => exact chk_fill h id lo hi (fun a' h' => ih h' hp)
    | look => exact chk_look h (fun a' h' => ih h' hp)

/-- And with one cursor at a time, and nothing else meanwhile, more is kept. -/
theorem chk_single (l : List Call) : ∀ {o a b}, At o 0 0 a → Proper o l → Single b l → (b = false → o = []) →
    o.length ≤ 1 → check true a (l.flatMap Call.code) := by
  induction l with
  | nil => intro o a b _ _ _ _ _; trivial
  | cons x l ih =>
    intro o a b h hp hs hb hlen
    have alone : ∀ {c}, c ∈ o → o = [c] := by
      intro c hc
      match o, hlen, hc with
      | [y], _, hc => simp at hc; rw [hc]
    rw [List.flatMap_cons]
    cases x with
    | write es back =>
      obtain ⟨e1, e2, e3⟩ := hs
      exact chk_write h es back (fun _ => ⟨hb e1, e2⟩) (fun a' h' => ih h' hp e3 hb hlen)
    | open_ c id =>
      refine chk_open h hp.1 (fun _ => hb hs.1) id (fun a' h' => ih h' hp.2 hs.2 ?_ ?_)
      · intro e; cases e
      · rw [hb hs.1]; simp
    | read c => exact chk_read h hp.1 (fun a' h' => ih h' hp.2 hs hb hlen)
    | move c id =>
      show check true a (Instr.cursor_close (2 * c) ++ Instr.cursor_open (2 * c) id ++ _)
      have ho := alone hp.1
      subst ho
      rw [List.append_assoc]
      refine chk_close h hp.1 ?_
      intro a' h'
      refine chk_open h' (by simp) (fun _ => by simp) id ?_
      intro a'' h''
      exact ih (by simpa using h'') hp.2 hs hb hlen
    | close c =>
      have ho := alone hp.1
      subst ho
      refine chk_close h hp.1 (fun a' h' => ih h' hp.2 hs ?_ ?_)
      · intro _; simp
      · simp
    | foreach_ id => exact chk_foreach h (fun _ => hb hs.1) id (fun a' h' => ih h' hp hs.2 hb hlen)
    | file id stop => exact chk_file h (fun _ => hb hs.1) id stop (fun a' h' => ih h' hp hs.2 hb hlen)
    | refresh id stop => exact chk_refresh h (fun _ => hb hs.1) id stop (fun a' h' => ih h' hp hs.2 hb hlen)
    | drop id b => exact chk_drop h id b (fun a' h' => ih h' hp hs.2 hb hlen)
    | fill id lo hi => exact chk_fill h id lo hi (fun a' h' => ih h' hp hs.2 hb hlen)
    | look => exact chk_look h (fun a' h' => ih h' hp hs.2 hb hlen)

end Verif.C71
