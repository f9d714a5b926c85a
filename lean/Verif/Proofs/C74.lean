import Verif.Spec.C74
import Verif.Proofs.C71

/-! Lemmas for C74: which locks each access is made under. -/
namespace Verif.C74
open Races
open Access (How Ty Instr lockOf Slot)
open C71 (TA SA PS nextA may upd upd_same upd_ne Holds At)

/-- What protects an access: a lock of the partition, the engine mutex, the exclusive
control lock, or that nobody else knows the place. -/
inductive Key where
  | S
  | A
  | M
  | X
  | P
deriving DecidableEq

/-- What each function has when it touches something. -/
def guard : Fn → Kind → Bool → Option (List Key)
  | _, .lockage, true => some [.M]
  | .engine_lock, .mapping, _ => some [.M]
  | .engine_lock, .storages, true => some [.M]
  | .engine_lock, .ref, false => some [.M]
  | .engine_lock, .part .cloud, false => some [.M]
  | .engine_write, .ref, false => some [.A]
  | .engine_write, .part .active, true => some [.A]
  | .engine_rollback, .ref, false => some [.A]
  | .engine_rollback, .part .active, true => some [.A]
  | .engine_commit, .ref, false => some [.A]
  | .engine_commit, .part .refresh, _ => some [.A]
  | .engine_commit, .part .active, false => some [.A]
  | .engine_commit, .part .cloud, false => some [.A]
  | .part_cursor, .ref, false => some [.A]
  | .part_cursor, .part .refresh, false => none
  | .part_cursor, .part _, false => some [.A]
  | .engine_drop_file, .ref, false => some [.S]
  | .engine_drop_file, .part .state, false => some [.S]
  | .engine_drop_file, .part .cloud, false => some [.S]
  | .engine_drop_file, .part .state, true => some [.S, .A]
  | .engine_drop_file, .part .index, true => some [.S, .A]
  | .engine_download, .ref, false => some [.S]
  | .engine_download, .part .state, false => some [.S]
  | .engine_download, .part .cloud, false => some [.S]
  | .engine_download, .part .index, true => some [.S]
  | .engine_download, .part .state, true => some [.S, .A, .M]
  | .engine_upload, .ref, false => some [.S]
  | .engine_upload, .part .state, false => some [.S]
  | .engine_upload, .part .cloud, false => some [.S]
  | .engine_upload, .part .state, true => some [.S, .A, .M]
  | .refresh_begin, .ref, false => some [.S]
  | .refresh_begin, .part .state, false => some [.S]
  | .refresh_begin, .part .active, true => some [.S, .A, .M]
  | .refresh_begin, .part .rotated, true => some [.S, .A, .M]
  | .refresh_merge, .part .active, false => none
  | .refresh_merge, .part .refresh, false => none
  | .refresh_merge, .part _, false => some [.S]
  | .refresh_apply, .ref, true => some [.S, .A, .M]
  | .refresh_apply, .storages, true => some [.M]
  | .refresh_apply, .part _, _ => some [.S, .A, .M]
  | .refresh_end, .part _, true => some [.P]
  | .engine_drop_reference, .mapping, _ => some [.X]
  | .engine_drop_reference, .storages, true => some [.X]
  | .engine_drop_reference, .ref, false => some [.X]
  | .engine_drop_reference, .part _, _ => some [.X]
  | .ref_free, .ref, true => some [.P]
  | .ref_free, .part _, true => some [.P]
  | .engine_show, .mapping, false => some [.M]
  | .engine_show, .storages, false => some [.M]
  | .engine_show, .ref, false => some [.M]
  | .engine_show, .part .refresh, false => none
  | .engine_show, .part .cloud, false => none
  | .engine_show, .part _, false => some [.M]
  | .engine_gc, .mapping, false => some [.M]
  | .engine_gc, .ref, false => some [.M]
  | .engine_rebalance, .storages, false => some [.M]
  | .engine_rebalance, .part .refresh, _ => some [.M]
  | .engine_checkpoint, .mapping, false => some [.X]
  | .engine_checkpoint, .ref, false => some [.X]
  | .engine_checkpoint, .part _, _ => some [.X]
  | .engine_resume, .mapping, false => some [.X]
  | .engine_resume, .ref, false => some [.X]
  | .engine_resume, .part _, false => some [.X]
  | _, _, _ => none

def kindOf : Loc → Kind
  | .mapping => .mapping
  | .storages => .storages
  | .lockage => .lockage
  | .ref _ => .ref
  | .part _ f => .part f

/-- The locks that a thread has by a variable, and the mutex. -/
def slotKeys (x : SA) (m : Bool) (g : List Key) : Bool :=
  g.all fun k => match k with
    | .S => x.s
    | .A => x.a
    | .M => m
    | .X => false
    | .P => false

/-- The mutex and the exclusive lock. -/
def globKeys (wr m : Bool) (g : List Key) : Bool :=
  g.all fun k => match k with
    | .M => m
    | .X => wr
    | _ => false

def useOk (x : SA) (m : Bool) (fn : Fn) (acc : List (Field × Bool)) : Prop :=
  (x.p = .cur ∧ (acc.all fun z => match guard fn (.part z.1) z.2 with
    | some g => slotKeys x m g
    | none => false) = true) ∨
  (x.p = .priv ∧ (acc.all fun z => decide (guard fn (.part z.1) z.2 = some [.P])) = true)

def lookOk (wr m : Bool) (fn : Fn) (acc : List (Kind × Bool)) : Prop :=
  (acc.all fun z => match guard fn z.1 z.2 with
    | some g => globKeys wr m g
    | none => false) = true

def opOk (a : TA) (m : Bool) (fn : Fn) : Instr → Prop
  | .find _ _ _ => fn = .engine_lock ∧ m = true
  | .lock _ _ => m = true
  | .unlock _ _ => m = true
  | .load i => (match guard fn .ref false with | some g => slotKeys (a.sl i) m g | none => false) = true
  | .swap _ => fn = .refresh_apply ∧ m = true
  | .free _ => fn = .refresh_end
  | .remove _ _ => fn = .engine_drop_reference
  | .freeRef => fn = .ref_free
  | .use _ => False
  | .look => False
  | _ => True

def xcheck (single : Bool) : TA → Bool → List Code → Prop
  | _, _, [] => True
  | a, m, .mutex_lock :: k => m = false ∧ xcheck single a true k
  | a, m, .mutex_unlock :: k => m = true ∧ xcheck single a false k
  | a, m, .op x fn :: k => may single a x ∧ opOk a m fn x ∧ xcheck single (nextA a x) m k
  | a, m, .use i fn acc :: k => may single a (.use i) ∧ useOk (a.sl i) m fn acc ∧ xcheck single a m k
  | a, m, .look fn _ acc :: k => may single a .look ∧ lookOk a.wr m fn acc ∧ xcheck single a m k

theorem xcheck_base {single} (l : List Code) : ∀ {a m}, xcheck single a m l →
    C71.check single a (l.filterMap Code.base) := by
  induction l with
  | nil => intro a m _; trivial
  | cons x l ih =>
    intro a m h
    cases x with
    | mutex_lock => exact ih h.2
    | mutex_unlock => exact ih h.2
    | op x fn => exact ⟨h.1, ih h.2.2⟩
    | use i fn acc => exact ⟨h.1, ih h.2.2⟩
    | look fn pick acc => exact ⟨h.1, ih h.2.2⟩

/-! ### Two accesses -/

/-- Two sets of keys exclude each other. -/
def clash (g h : List Key) : Bool :=
  decide (.X ∈ g) || decide (.X ∈ h) || decide (.P ∈ g) || decide (.P ∈ h) ||
    [Key.S, .A, .M].any fun k => decide (k ∈ g) && decide (k ∈ h)

def allFn : List Fn := [.engine_lock, .engine_unlock, .engine_write, .engine_rollback, .engine_commit, .part_cursor,
  .engine_drop_file, .engine_download, .engine_upload, .refresh_begin, .refresh_merge, .refresh_apply, .refresh_end,
  .engine_drop_reference, .ref_free, .engine_show, .engine_gc, .engine_rebalance, .engine_checkpoint, .engine_resume]

def allField : List Field := [.state, .index, .active, .rotated, .refresh, .cloud]

theorem mem_allFn (f : Fn) : f ∈ allFn := by cases f <;> decide
theorem mem_allField (f : Field) : f ∈ allField := by cases f <;> decide

def knownB (f g : Fn) : Field → Bool
  | .state => decide (f = .engine_show ∧ g = .engine_drop_file)
  | .index => decide (f = .engine_show ∧ (g = .engine_drop_file ∨ g = .engine_download) ∨
      f = .part_cursor ∧ g = .engine_download)
  | .active => decide (f = .engine_show ∧ (g = .engine_write ∨ g = .engine_rollback))
  | .refresh => decide (f = .engine_commit ∧ g = .engine_rebalance)
  | .rotated => false
  | .cloud => false

theorem known_of {f g x} (h : knownB f g x = true) : Known f g x := by
  cases x <;> simp only [knownB, decide_eq_true_eq] at h <;> first | exact h | cases h

/-- The functions whose accesses to a place are not kept apart. -/
def bad (f g : Fn) (k : Kind) (v w : Bool) : Bool :=
  match guard f k v, guard g k w with
  | some x, some y => (v || w) && ! clash x y
  | _, _ => false

set_option maxRecDepth 100000 in
theorem bad_part : (allFn.all fun f => allFn.all fun g => allField.all fun x => [true, false].all fun v =>
    [true, false].all fun w => ! bad f g (.part x) v w || knownB f g x || knownB g f x) = true := by
  decide +kernel

set_option maxRecDepth 100000 in
theorem bad_other : (allFn.all fun f => allFn.all fun g => [Kind.mapping, .storages, .lockage, .ref].all fun k =>
    [true, false].all fun v => [true, false].all fun w => ! bad f g k v w) = true := by
  decide +kernel

theorem mem_bool (b : Bool) : b ∈ [true, false] := by cases b <;> decide

theorem bad_known {f g k v w} (h : bad f g k v w = true) : ∃ x, k = .part x ∧ (Known f g x ∨ Known g f x) := by
  have ho : ∀ k, k ∈ [Kind.mapping, .storages, .lockage, .ref] → bad f g k v w = false := by
    intro k hk
    have := List.all_eq_true.1 (List.all_eq_true.1 (List.all_eq_true.1 (List.all_eq_true.1
      (List.all_eq_true.1 bad_other f (mem_allFn f)) g (mem_allFn g)) k hk) v (mem_bool v)) w (mem_bool w)
    simpa using this
  cases k with
  | part x =>
    refine ⟨x, rfl, ?_⟩
    have := List.all_eq_true.1 (List.all_eq_true.1 (List.all_eq_true.1 (List.all_eq_true.1
      (List.all_eq_true.1 bad_part f (mem_allFn f)) g (mem_allFn g)) x (mem_allField x)) v (mem_bool v)) w (mem_bool w)
    rw [h] at this
    simp only [Bool.not_true, Bool.false_or, Bool.or_eq_true] at this
    rcases this with e | e
    · exact .inl (known_of e)
    · exact .inr (known_of e)
  | mapping => rw [ho _ (by decide)] at h; cases h
  | storages => rw [ho _ (by decide)] at h; cases h
  | lockage => rw [ho _ (by decide)] at h; cases h
  | ref => rw [ho _ (by decide)] at h; cases h

theorem clash_symm (g h : List Key) : clash g h = clash h g := by
  unfold clash
  simp only [List.any_cons, List.any_nil, Bool.or_false]
  cases decide (Key.X ∈ g) <;> cases decide (Key.X ∈ h) <;> cases decide (Key.P ∈ g) <;> cases decide (Key.P ∈ h) <;>
    simp [Bool.and_comm]

theorem clash_false {g h : List Key} (h1 : .X ∉ g) (h2 : .X ∉ h) (h3 : .P ∉ g) (h4 : .P ∉ h)
    (h5 : ¬ (.S ∈ g ∧ .S ∈ h)) (h6 : ¬ (.A ∈ g ∧ .A ∈ h)) (h7 : ¬ (.M ∈ g ∧ .M ∈ h)) : clash g h = false := by
  have e : ∀ k : Key, ¬ (k ∈ g ∧ k ∈ h) → (decide (k ∈ g) && decide (k ∈ h)) = false := by
    intro k hk
    rw [Bool.eq_false_iff]
    intro e
    simp only [Bool.and_eq_true, decide_eq_true_eq] at e
    exact hk e
  simp only [clash, h1, h2, h3, h4, decide_false, Bool.or_false, List.any_cons, List.any_nil, e _ h5, e _ h6, e _ h7]

/-- How a thread comes to touch a place: by a variable with a reference, under the
mutex or the exclusive lock, or because nobody else knows it. -/
inductive Exp (s : State) (a : Nat → TA) (t : Nat) (x : Acc) : Prop
  | slot (i : Nat) (v : Slot) (g : List Key) (hs : (s.base.th t).slot i = some v)
      (hl : x.loc = .ref v.ref ∨ ∃ f, x.loc = .part (s.base.mem.part v.ref) f)
      (hg : guard x.fn (kindOf x.loc) x.w = some g) (hx : .X ∉ g) (hp : .P ∉ g)
      (hS : .S ∈ g → ((a t).sl i).s = true) (hA : .A ∈ g → ((a t).sl i).a = true)
      (hM : .M ∈ g → s.mutex = some t)
  | glob (g : List Key) (hg : guard x.fn (kindOf x.loc) x.w = some g) (hS : .S ∉ g) (hA : .A ∉ g) (hP : .P ∉ g)
      (hM : .M ∈ g → s.mutex = some t) (hX : .X ∈ g → (a t).wr = true)
      (hc : (a t).pend = true ∨ (a t).wr = true ∨ ∃ i v, (s.base.th t).slot i = some v)
      (hl : (∃ e ∈ s.base.mem.map, x.loc = .ref e.ref ∨ ∃ f, x.loc = .part (s.base.mem.part e.ref) f) ∨
        x.loc = .mapping ∨ x.loc = .storages ∨ x.loc = .lockage)
  | priv (i : Nat) (v : Slot) (o : Nat) (f : Field) (hs : (s.base.th t).slot i = some v) (hp : ((a t).sl i).p = .priv)
      (ho : v.ptr = some o) (hl : x.loc = .part o f)
  | gone (r : Nat) (hg : (s.base.th t).gone = some r)
      (hl : x.loc = .ref r ∨ ∃ f, x.loc = .part (s.base.mem.part r) f)

/-- The keys of both accesses are known and do not exclude each other. -/
def Loose (x y : Acc) : Prop := ∃ g h, guard x.fn (kindOf x.loc) x.w = some g ∧ guard y.fn (kindOf y.loc) y.w = some h ∧
  clash g h = false

theorem Loose.symm {x y : Acc} (h : Loose x y) : Loose y x := by
  obtain ⟨g, h, e1, e2, e3⟩ := h
  exact ⟨h, g, e2, e1, by rw [clash_symm]; exact e3⟩

/-- What is known of all threads. -/
structure Inv (single : Bool) (n : Nat) (s : State) (d : Nat → Nat → Nat) (a : Nat → TA)
    (R : List (Nat × Option Nat)) (m : Nat → Bool) : Prop where
  base : C71.Inv single n s.base d a R
  todo : ∀ t, (s.base.th t).todo = (s.code t).filterMap Code.base
  chk : ∀ t, xcheck single (a t) (m t) (s.code t)
  waits : ∀ t, (s.base.locks.wait t).isSome = true → ∃ i ty fn k, s.code t = .op (.lock i ty) fn :: k
  mx : ∀ t, s.mutex = some t ↔ m t = true ∧ s.base.locks.wait t = none

section pairs
variable {single : Bool} {n : Nat} {s : State} {d : Nat → Nat → Nat} {a : Nat → TA} {R : List (Nat × Option Nat)}
  {m : Nat → Bool}

theorem mapped (h : Inv single n s d a R m) {t i v} (hs : (s.base.th t).slot i = some v) :
    s.base.mem.refLive v.ref = true := by
  obtain ⟨e, he, he'⟩ := h.base.mm.inmap t i v hs
  rw [← he']
  exact h.base.mm.mapped e he

theorem not_wr (h : Inv single n s d a R m) {t u : Nat} (hn : t ≠ u)
    (hc : (a t).pend = true ∨ (a t).wr = true ∨ ∃ i v, (s.base.th t).slot i = some v) : (a u).wr ≠ true := by
  intro hw
  have h1 := (h.base.ct.writer u).2 hw
  have h2 := h.base.ct.alone u h1
  have h3 := h.base.ct.len
  rcases hc with e | e | ⟨i, v, e⟩
  · have := List.length_pos_of_mem ((h.base.ct.pend t).2 e); omega
  · rw [(h.base.ct.writer t).2 e] at h1; cases h1; exact hn rfl
  · rw [h.base.ct.empty hw t i] at e; cases e

theorem mutex_one {t u : Nat} (hn : t ≠ u) (h1 : s.mutex = some t) (h2 : s.mutex = some u) : False := by
  rw [h1] at h2; cases h2; exact hn rfl

theorem slot_slot (h : Inv single n s d a R m) {t u : Nat} (hn : t ≠ u) {x y : Acc} (hxy : x.loc = y.loc)
    {i v g} (hs : (s.base.th t).slot i = some v)
    (hl : x.loc = .ref v.ref ∨ ∃ f, x.loc = .part (s.base.mem.part v.ref) f)
    (hg : guard x.fn (kindOf x.loc) x.w = some g) (hx : .X ∉ g) (hp : .P ∉ g)
    (hS : .S ∈ g → ((a t).sl i).s = true) (hA : .A ∈ g → ((a t).sl i).a = true) (hM : .M ∈ g → s.mutex = some t)
    {j w k} (ks : (s.base.th u).slot j = some w)
    (kl : y.loc = .ref w.ref ∨ ∃ f, y.loc = .part (s.base.mem.part w.ref) f)
    (kg : guard y.fn (kindOf y.loc) y.w = some k) (kx : .X ∉ k) (kp : .P ∉ k)
    (kS : .S ∈ k → ((a u).sl j).s = true) (kA : .A ∈ k → ((a u).sl j).a = true) (kM : .M ∈ k → s.mutex = some u) :
    Loose x y := by
  have hr : v.ref = w.ref := by
    rcases hl with e | ⟨f, e⟩ <;> rcases kl with e' | ⟨f', e'⟩ <;> rw [hxy, e'] at e
    · injection e with e; exact e.symm
    · cases e
    · cases e
    · injection e with e _
      exact h.base.mm.pinj _ _ (mapped h hs) (mapped h ks) e.symm
  refine ⟨g, k, hg, kg, clash_false hx kx hp kp ?_ ?_ ?_⟩
  · rintro ⟨e1, e2⟩
    exact hn (h.base.lk.excl (ty := .service) (r := w.ref) ⟨v, hs, hr, hS e1⟩ ⟨w, ks, rfl, kS e2⟩).1
  · rintro ⟨e1, e2⟩
    exact hn (h.base.lk.excl (ty := .access) (r := w.ref) ⟨v, hs, hr, hA e1⟩ ⟨w, ks, rfl, kA e2⟩).1
  · rintro ⟨e1, e2⟩
    exact mutex_one hn (hM e1) (kM e2)

/-- Two accesses to one place by different threads. -/
theorem pair (h : Inv single n s d a R m) {t u : Nat} (hn : t ≠ u) {x y : Acc} (hxy : x.loc = y.loc)
    (hx : Exp s a t x) (hy : Exp s a u y) : Loose x y := by
  -- places nobody else knows
  have priv_in : ∀ {t i v o f}, (s.base.th t).slot i = some v → ((a t).sl i).p = .priv → v.ptr = some o →
      ∀ {z : Acc}, z.loc = .part o f → ∀ r, s.base.mem.refLive r = true →
      ¬ (z.loc = .ref r ∨ ∃ f, z.loc = .part (s.base.mem.part r) f) := by
    intro t i v o f e1 e2 e3 z e4 r hr
    obtain ⟨_, o', h1, _, h2⟩ := h.base.mm.priv t i v e1 e2
    rw [e3] at h1; cases h1
    rintro (e | ⟨f', e⟩) <;> rw [e4] at e <;> cases e
    exact h2 r hr rfl
  have gone_in : ∀ {t r}, (s.base.th t).gone = some r → ∀ {z : Acc},
      (z.loc = .ref r ∨ ∃ f, z.loc = .part (s.base.mem.part r) f) → ∀ q, s.base.mem.refLive q = true →
      (z.loc = .ref q ∨ ∃ f, z.loc = .part (s.base.mem.part q) f) → q = r := by
    intro t r e1 z e2 q hq e3
    obtain ⟨_, h2, _, _⟩ := h.base.mm.gone t r e1
    rcases e2 with e2 | ⟨f, e2⟩ <;> rcases e3 with e3 | ⟨f', e3⟩ <;> rw [e2] at e3
    · cases e3; rfl
    · cases e3
    · cases e3
    · injection e3 with e4 e5
      exact h.base.mm.pinj _ _ hq h2 e4.symm
  have slot_glob : ∀ {t u : Nat} {x y : Acc} {i : Nat} {v : Slot} {g k : List Key}, t ≠ u → x.loc = y.loc →
      (s.base.th t).slot i = some v → guard x.fn (kindOf x.loc) x.w = some g → .X ∉ g → .P ∉ g →
      (.M ∈ g → s.mutex = some t) → guard y.fn (kindOf y.loc) y.w = some k → .S ∉ k → .A ∉ k → .P ∉ k →
      (.M ∈ k → s.mutex = some u) → (.X ∈ k → (a u).wr = true) → Loose x y := by
    intro t u x y i v g k hn _ hs hg hx hp hM kg kS kA kP kM kX
    refine ⟨g, k, hg, kg, clash_false hx ?_ hp kP ?_ ?_ ?_⟩
    · intro e; exact not_wr h hn (.inr (.inr ⟨i, v, hs⟩)) (kX e)
    · exact fun e => kS e.2
    · exact fun e => kA e.2
    · rintro ⟨e1, e2⟩; exact mutex_one hn (hM e1) (kM e2)
  have glob_priv : ∀ {u j w o f} {x y : Acc}, x.loc = y.loc → ((∃ e ∈ s.base.mem.map, x.loc = .ref e.ref ∨
      ∃ f, x.loc = .part (s.base.mem.part e.ref) f) ∨ x.loc = .mapping ∨ x.loc = .storages ∨ x.loc = .lockage) →
      (s.base.th u).slot j = some w → ((a u).sl j).p = .priv → w.ptr = some o → y.loc = .part o f → False := by
    intro u j w o f x y hxy hl ks kp ko kl
    rcases hl with ⟨e, he, hl⟩ | hl | hl | hl
    · exact priv_in ks kp ko kl e.ref (h.base.mm.mapped e he) (by rw [← hxy]; exact hl)
    all_goals rw [hxy, kl] at hl; cases hl
  have glob_gone : ∀ {u r} {x y : Acc}, x.loc = y.loc → ((∃ e ∈ s.base.mem.map, x.loc = .ref e.ref ∨
      ∃ f, x.loc = .part (s.base.mem.part e.ref) f) ∨ x.loc = .mapping ∨ x.loc = .storages ∨ x.loc = .lockage) →
      (s.base.th u).gone = some r → (y.loc = .ref r ∨ ∃ f, y.loc = .part (s.base.mem.part r) f) → False := by
    intro u r x y hxy hl kg kl
    rcases hl with ⟨e, he, hl⟩ | hl | hl | hl
    · exact (h.base.mm.gone u r kg).2.2.1 e he (gone_in kg kl e.ref (h.base.mm.mapped e he) (by rw [← hxy]; exact hl))
    all_goals rw [hxy] at hl; rcases kl with kl | ⟨f, kl⟩ <;> rw [kl] at hl <;> cases hl
  have slot_gone : ∀ {t i v u r} {x y : Acc}, x.loc = y.loc → (s.base.th t).slot i = some v →
      (x.loc = .ref v.ref ∨ ∃ f, x.loc = .part (s.base.mem.part v.ref) f) →
      (s.base.th u).gone = some r → (y.loc = .ref r ∨ ∃ f, y.loc = .part (s.base.mem.part r) f) → False := by
    intro t i v u r x y hxy hs hl kg kl
    obtain ⟨e, he, he'⟩ := h.base.mm.inmap t i v hs
    exact (h.base.mm.gone u r kg).2.2.1 e he (by
      rw [he']; exact gone_in kg kl v.ref (mapped h hs) (by rw [← hxy]; exact hl))
  cases hx with
  | slot i v g hs hl hg hx hp hS hA hM =>
    cases hy with
    | slot j w k ks kl kg kx kp kS kA kM =>
      exact slot_slot h hn hxy hs hl hg hx hp hS hA hM ks kl kg kx kp kS kA kM
    | glob k kg kS kA kP kM kX kc kl => exact slot_glob hn hxy hs hg hx hp hM kg kS kA kP kM kX
    | priv j w o f ks kp ko kl => exact absurd (by rw [← hxy]; exact hl) (priv_in ks kp ko kl v.ref (mapped h hs))
    | gone r kg kl => exact (slot_gone hxy hs hl kg kl).elim
  | glob g hg hS hA hP hM hX hc hl =>
    cases hy with
    | slot j w k ks kl kg kx kp kS kA kM =>
      exact (slot_glob (Ne.symm hn) hxy.symm ks kg kx kp kM hg hS hA hP hM hX).symm
    | glob k kg kS kA kP kM kX kc kl =>
      refine ⟨g, k, hg, kg, clash_false ?_ ?_ hP kP (fun e => hS e.1) (fun e => hA e.1) ?_⟩
      · intro e; exact not_wr h (Ne.symm hn) kc (hX e)
      · intro e; exact not_wr h hn hc (kX e)
      · rintro ⟨e1, e2⟩; exact mutex_one hn (hM e1) (kM e2)
    | priv j w o f ks kp ko kl => exact (glob_priv hxy hl ks kp ko kl).elim
    | gone r kg kl => exact (glob_gone hxy hl kg kl).elim
  | priv i v o f hs hp ho hl =>
    cases hy with
    | slot j w k ks kl kg kx kp kS kA kM =>
      exact absurd (by rw [hxy]; exact kl) (priv_in hs hp ho hl w.ref (mapped h ks))
    | glob k kg kS kA kP kM kX kc kl => exact (glob_priv hxy.symm kl hs hp ho hl).elim
    | priv j w o' f' ks kp ko kl =>
      rw [hxy, kl] at hl
      injection hl with e1 e2
      exact absurd (h.base.mm.privs t i v u j w hs hp ks kp (by rw [ho, ko, e1])).1 hn
    | gone r kg kl =>
      exact absurd (by rw [hxy]; exact kl) (priv_in hs hp ho hl r (h.base.mm.gone u r kg).2.1)
  | gone r hg hl =>
    cases hy with
    | slot j w k ks kl kg kx kp kS kA kM => exact (slot_gone hxy.symm ks kl hg hl).elim
    | glob k kg kS kA kP kM kX kc kl => exact (glob_gone hxy.symm kl hg hl).elim
    | priv j w o f ks kp ko kl =>
      exact absurd (by rw [← hxy]; exact hl) (priv_in ks kp ko kl r (h.base.mm.gone t r hg).2.1)
    | gone q kg kl =>
      have := gone_in kg kl r (h.base.mm.gone t r hg).2.1 (by rw [← hxy]; exact hl)
      subst this
      exact absurd ((h.base.mm.gone t r hg).2.2.2 u kg).symm hn

theorem Inv.awake (h : Inv single n s d a R m) {t : Nat} {c : Code} {k} (hc : s.code t = c :: k)
    (hl : ∀ i ty fn, c ≠ .op (.lock i ty) fn) : s.base.locks.wait t = none := by
  cases e : s.base.locks.wait t with
  | none => rfl
  | some w =>
    obtain ⟨i, ty, fn, k', e'⟩ := h.waits t (by rw [e]; rfl)
    rw [hc] at e'
    injection e' with e1 _
    exact absurd e1 (hl i ty fn)

theorem Inv.have_mutex (h : Inv single n s d a R m) {t : Nat} {c : Code} {k} (hc : s.code t = c :: k)
    (hl : ∀ i ty fn, c ≠ .op (.lock i ty) fn) (hm : m t = true) : s.mutex = some t :=
  (h.mx t).2 ⟨hm, h.awake hc hl⟩

theorem slot_exp {t i : Nat} {v : Slot} {x : Acc} {g : List Key} (hs : (s.base.th t).slot i = some v)
    (hl : x.loc = .ref v.ref ∨ ∃ f, x.loc = .part (s.base.mem.part v.ref) f)
    (hg : guard x.fn (kindOf x.loc) x.w = some g) (hk : slotKeys ((a t).sl i) (m t) g = true)
    (hm : m t = true → s.mutex = some t) : Exp s a t x := by
  have hk' := List.all_eq_true.1 hk
  refine .slot i v g hs hl hg ?_ ?_ ?_ ?_ ?_
  · intro e; exact absurd (hk' _ e) (by simp)
  · intro e; exact absurd (hk' _ e) (by simp)
  · intro e; exact hk' _ e
  · intro e; exact hk' _ e
  · intro e; exact hm (hk' _ e)

theorem glob_exp {t : Nat} {x : Acc} {g : List Key}
    (hg : guard x.fn (kindOf x.loc) x.w = some g) (hk : globKeys (a t).wr (m t) g = true)
    (hm : m t = true → s.mutex = some t)
    (hc : (a t).pend = true ∨ (a t).wr = true ∨ ∃ i v, (s.base.th t).slot i = some v)
    (hl : (∃ e ∈ s.base.mem.map, x.loc = .ref e.ref ∨ ∃ f, x.loc = .part (s.base.mem.part e.ref) f) ∨
      x.loc = .mapping ∨ x.loc = .storages ∨ x.loc = .lockage) : Exp s a t x := by
  have hk' := List.all_eq_true.1 hk
  refine .glob g hg ?_ ?_ ?_ ?_ ?_ hc hl
  · intro e; exact absurd (hk' _ e) (by simp)
  · intro e; exact absurd (hk' _ e) (by simp)
  · intro e; exact absurd (hk' _ e) (by simp)
  · intro e; exact hm (hk' _ e)
  · intro e; exact hk' _ e

theorem lockage_guard (fn : Fn) : guard fn .lockage true = some [.M] := by cases fn <;> rfl

theorem op_exp (h : Inv single n s d a R m) {t : Nat} {x : Instr} {fn : Fn} {k} (hc : s.code t = .op x fn :: k)
    (hmay : may single (a t) x) (hok : opOk (a t) (m t) fn x) {z : Acc} (hz : z ∈ touches s.base t fn x) :
    Exp s a t z := by
  have hmm : (∀ i ty, x ≠ .lock i ty) → m t = true → s.mutex = some t := by
    intro hl
    refine h.have_mutex hc ?_
    intro i ty fn' e
    injection e with e _
    exact hl i ty e
  cases x with
  | shared => cases hz
  | exclusive => cases hz
  | release => cases hz
  | leave i => cases hz
  | use i => cases hz
  | look => cases hz
  | find i id how =>
    obtain ⟨e1, e2⟩ := hok
    subst e1
    have hM := hmm (by intro i ty e; cases e)
    have hg : globKeys (a t).wr (m t) [.M] = true := by simp [globKeys, e2]
    have hcc : (a t).pend = true ∨ (a t).wr = true ∨ ∃ i v, (s.base.th t).slot i = some v := .inl hmay.1
    simp only [touches] at hz
    rcases List.mem_cons.1 hz with e | hz
    · subst e; exact glob_exp (g := [.M]) rfl hg hM hcc (.inr (.inl rfl))
    · split at hz
      · rcases List.mem_append.1 hz with hz | hz
        · rcases List.mem_cons.1 hz with e | hz
          · subst e; exact glob_exp (g := [.M]) rfl hg hM hcc (.inr (.inl rfl))
          · have e := List.mem_singleton.1 hz
            subst e; exact glob_exp (g := [.M]) rfl hg hM hcc (.inr (.inr (.inl rfl)))
        · cases hlast : s.base.mem.map.getLast? with
          | none => rw [hlast] at hz; cases hz
          | some e =>
            rw [hlast] at hz
            have hmem := List.mem_of_getLast? hlast
            rcases List.mem_cons.1 hz with e' | hz
            · subst e'; exact glob_exp (g := [.M]) rfl hg hM hcc (.inl ⟨e, hmem, .inl rfl⟩)
            · have e' := List.mem_singleton.1 hz
              subst e'; exact glob_exp (g := [.M]) rfl hg hM hcc (.inl ⟨e, hmem, .inr ⟨_, rfl⟩⟩)
      · cases hz
  | lock i ty =>
    have hm : m t = true := hok
    simp only [touches] at hz
    cases hs : (s.base.th t).slot i with
    | none => rw [hs] at hz; cases hz
    | some v =>
      cases hw : s.base.locks.wait t with
      | some w => rw [hs, hw] at hz; cases hz
      | none =>
        rw [hs, hw] at hz
        have e := List.mem_singleton.1 hz
        subst e
        exact glob_exp (m := m) (g := [.M]) (lockage_guard fn) (by simp [globKeys, hm]) (fun _ => (h.mx t).2 ⟨hm, hw⟩)
          (.inr (.inr ⟨i, v, hs⟩)) (.inr (.inr (.inr rfl)))
  | unlock i ty =>
    have hm : m t = true := hok
    have hM := hmm (by intro i ty e; cases e)
    simp only [touches] at hz
    cases hs : (s.base.th t).slot i with
    | none => rw [hs] at hz; cases hz
    | some v =>
      rw [hs] at hz
      have e := List.mem_singleton.1 hz
      subst e
      exact glob_exp (g := [.M]) (lockage_guard fn) (by simp [globKeys, hm]) hM
        (.inr (.inr ⟨i, v, hs⟩)) (.inr (.inr (.inr rfl)))
  | load i =>
    have hM := hmm (by intro i ty e; cases e)
    simp only [touches] at hz
    cases hs : (s.base.th t).slot i with
    | none => rw [hs] at hz; cases hz
    | some v =>
      rw [hs] at hz
      have e := List.mem_singleton.1 hz
      subst e
      simp only [opOk] at hok
      cases hg : guard fn .ref false with
      | none => rw [hg] at hok; cases hok
      | some g =>
        rw [hg] at hok
        exact slot_exp hs (.inl rfl) hg hok hM
  | swap i =>
    obtain ⟨e1, e2⟩ := hok
    subst e1
    obtain ⟨h1, h2, h3⟩ := hmay
    have hM := hmm (by intro i ty e; cases e)
    simp only [touches] at hz
    cases hs : (s.base.th t).slot i with
    | none => rw [hs] at hz; cases hz
    | some v =>
      have hptr := (h.base.mm.cur t i v hs h3).1
      have hk : slotKeys ((a t).sl i) (m t) [.S, .A, .M] = true := by simp [slotKeys, h1, h2, e2]
      rw [hs] at hz
      simp only [hptr, List.cons_append, List.nil_append, List.mem_cons, List.not_mem_nil, or_false] at hz
      rcases hz with e | e | e | e | e | e <;> subst e
      · exact slot_exp (g := [.S, .A, .M]) hs (.inl rfl) rfl hk hM
      · exact glob_exp (g := [.M]) rfl (by simp [globKeys, e2]) hM (.inr (.inr ⟨i, v, hs⟩)) (.inr (.inr (.inl rfl)))
      all_goals exact slot_exp (g := [.S, .A, .M]) hs (.inr ⟨_, rfl⟩) rfl hk hM
  | free i =>
    simp only [touches] at hz
    cases hs : (s.base.th t).slot i with
    | none => rw [hs] at hz; cases hz
    | some v =>
      rw [hs] at hz
      obtain ⟨_, o, ho, _⟩ := h.base.mm.priv t i v hs hmay
      simp only [ho, part_free] at hz
      obtain ⟨f, _, e⟩ := List.mem_map.1 hz
      subst e
      exact .priv i v o f hs hmay ho rfl
  | remove id empty =>
    have e1 : fn = .engine_drop_reference := hok
    subst e1
    have hM := hmm (by intro i ty e; cases e)
    have hg : globKeys (a t).wr (m t) [.X] = true := by simp [globKeys, hmay.1]
    have hcc : (a t).pend = true ∨ (a t).wr = true ∨ ∃ i v, (s.base.th t).slot i = some v := .inr (.inl hmay.1)
    simp only [touches] at hz
    rcases List.mem_cons.1 hz with e | hz
    · subst e; exact glob_exp (g := [.X]) rfl hg hM hcc (.inr (.inl rfl))
    · cases hf : s.base.mem.map.find? (fun e => decide (e.min ≤ id ∧ id ≤ e.max)) with
      | none => rw [hf] at hz; cases hz
      | some e =>
        rw [hf] at hz
        have hmem := List.mem_of_find?_eq_some hf
        rcases List.mem_append.1 hz with hz | hz
        · rcases List.mem_cons.1 hz with e' | hz
          · subst e'; exact glob_exp (g := [.X]) rfl hg hM hcc (.inl ⟨e, hmem, .inl rfl⟩)
          · have e' := List.mem_singleton.1 hz
            subst e'; exact glob_exp (g := [.X]) rfl hg hM hcc (.inl ⟨e, hmem, .inr ⟨_, rfl⟩⟩)
        · cases empty
          · cases hz
          · simp only [if_true, List.mem_cons, List.not_mem_nil, or_false] at hz
            rcases hz with e' | e' | e' <;> subst e'
            · exact glob_exp (g := [.X]) rfl hg hM hcc (.inr (.inl rfl))
            · exact glob_exp (g := [.X]) rfl hg hM hcc (.inr (.inr (.inl rfl)))
            · exact glob_exp (g := [.X]) rfl hg hM hcc (.inl ⟨e, hmem, .inr ⟨_, rfl⟩⟩)
  | freeRef =>
    simp only [touches] at hz
    cases hs : (s.base.th t).gone with
    | none => rw [hs] at hz; cases hz
    | some r =>
      rw [hs] at hz
      rcases List.mem_cons.1 hz with e | hz
      · subst e; exact .gone r hs (.inl rfl)
      · obtain ⟨f, _, e⟩ := List.mem_map.1 hz
        subst e; exact .gone r hs (.inr ⟨f, rfl⟩)

theorem explained (h : Inv single n s d a R m) {t : Nat} {z : Acc} (hz : z ∈ accesses s t) : Exp s a t z := by
  have hchk := h.chk t
  unfold accesses at hz
  cases hc : s.code t with
  | nil => rw [hc] at hz; cases hz
  | cons c k =>
    rw [hc] at hz hchk
    cases c with
    | mutex_lock => cases hz
    | mutex_unlock => cases hz
    | op x fn => exact op_exp h hc hchk.1 hchk.2.1 hz
    | use i fn acc =>
      have hM : m t = true → s.mutex = some t := h.have_mutex hc (by intro i ty fn e; cases e)
      dsimp only at hz
      cases hs : (s.base.th t).slot i with
      | none => rw [hs] at hz; cases hz
      | some v =>
        rw [hs] at hz
        rcases hchk.2.1 with ⟨e1, e2⟩ | ⟨e1, e2⟩
        · have hp := (h.base.mm.cur t i v hs e1).1
          dsimp only at hz
          rw [hp] at hz
          obtain ⟨y, hy, e⟩ := List.mem_map.1 hz
          subst e
          have hk := List.all_eq_true.1 e2 y hy
          cases hg : guard fn (.part y.1) y.2 with
          | none => rw [hg] at hk; cases hk
          | some g =>
            rw [hg] at hk
            exact slot_exp (g := g) hs (.inr ⟨_, rfl⟩) hg hk hM
        · obtain ⟨_, o, ho, _⟩ := h.base.mm.priv t i v hs e1
          dsimp only at hz
          rw [ho] at hz
          obtain ⟨y, hy, e⟩ := List.mem_map.1 hz
          subst e
          exact .priv i v o _ hs e1 ho rfl
    | look fn pick acc =>
      have hM : m t = true → s.mutex = some t := h.have_mutex hc (by intro i ty fn e; cases e)
      have hcc : (a t).pend = true ∨ (a t).wr = true ∨ ∃ i v, (s.base.th t).slot i = some v := by
        rcases hchk.1 with e | e
        · exact .inl e
        · exact .inr (.inl e)
      dsimp only at hz
      obtain ⟨y, hy, hz⟩ := List.mem_flatMap.1 hz
      obtain ⟨l, hl, e⟩ := List.mem_map.1 hz
      subst e
      have hk := List.all_eq_true.1 hchk.2.1 y hy
      have hkind : kindOf l = y.1 := by
        cases hy1 : y.1 <;> rw [hy1] at hl <;> simp only [places, List.mem_singleton, List.mem_map] at hl
        · subst hl; rfl
        · subst hl; rfl
        · subst hl; rfl
        · obtain ⟨_, _, e⟩ := hl; subst e; rfl
        · obtain ⟨_, _, e⟩ := hl; subst e; rfl
      have hin : (∃ e ∈ s.base.mem.map, l = .ref e.ref ∨ ∃ f, l = .part (s.base.mem.part e.ref) f) ∨
          l = .mapping ∨ l = .storages ∨ l = .lockage := by
        cases hy1 : y.1 <;> rw [hy1] at hl <;> simp only [places, List.mem_singleton, List.mem_map] at hl
        · exact .inr (.inl hl)
        · exact .inr (.inr (.inl hl))
        · exact .inr (.inr (.inr hl))
        · obtain ⟨_, ⟨e, he, rfl⟩, rfl⟩ := hl
          exact .inl ⟨e, (List.mem_filter.1 he).1, .inl rfl⟩
        · obtain ⟨_, ⟨e, he, rfl⟩, rfl⟩ := hl
          exact .inl ⟨e, (List.mem_filter.1 he).1, .inr ⟨_, rfl⟩⟩
      cases hg : guard fn y.1 y.2 with
      | none => rw [hg] at hk; cases hk
      | some g =>
        rw [hg] at hk
        exact glob_exp (g := g) (by rw [← hg, ← hkind]) hk hM hcc hin

/-- A race is one of those that are known. -/
theorem race_known (h : Inv single n s d a R m) {x y : Acc} (hr : Race s x y) :
    ∃ p f, x.loc = .part p f ∧ (Known x.fn y.fn f ∨ Known y.fn x.fn f) := by
  obtain ⟨t, u, hn, hx, hy, hxy, hw⟩ := hr
  obtain ⟨g, k, e1, e2, e3⟩ := pair h hn hxy (explained h hx) (explained h hy)
  have hb : bad x.fn y.fn (kindOf x.loc) x.w y.w = true := by
    unfold bad
    rw [e1, hxy, e2]
    simp only [e3, Bool.not_false, Bool.and_true, Bool.or_eq_true]
    exact hw
  obtain ⟨f, hk, hkn⟩ := bad_known hb
  cases hl : x.loc with
  | part p f' => rw [hl] at hk; injection hk with hk; subst hk; exact ⟨p, f', rfl, hkn⟩
  | mapping => rw [hl] at hk; cases hk
  | storages => rw [hl] at hk; cases hk
  | lockage => rw [hl] at hk; cases hk
  | ref r => rw [hl] at hk; cases hk

end pairs

/-! ### Steps -/

theorem broadcast_some (l : Locks) (u : Nat) : (l.broadcast.wait u).isSome = (l.wait u).isSome := by
  simp only [Locks.broadcast]
  cases l.wait u <;> rfl

theorem unlock_some (l : Locks) (p u : Nat) : ((l.lockage_unlock p).wait u).isSome = (l.wait u).isSome := by
  simp only [Locks.lockage_unlock]
  split
  · rfl
  · split
    · rw [broadcast_some]
    · rfl

/-- What a step does to the threads that wait. -/
theorem step_wait {s s' : Access.State} {t : Nat} {w : Bool} (h : Access.step s t w = .ok s') :
    (∀ u, u ≠ t → (s'.locks.wait u).isSome = (s.locks.wait u).isSome) ∧
    ((∃ i ty k v, (s.th t).todo = .lock i ty :: k ∧ (s.th t).slot i = some v ∧
        ((s'.th t).todo = k ∧ s'.locks.wait t = none ∨
          (s'.th t).todo = .lock i ty :: k ∧ ((s.locks.wait t).isSome = true → (s'.locks.wait t).isSome = true))) ∨
      ((s'.locks.wait t).isSome = (s.locks.wait t).isSome ∧
        ∀ i ty k v, (s.th t).todo = .lock i ty :: k → (s.th t).slot i ≠ some v)) := by
  have hb : ∀ {α β : Type} {x : Res α} {f : α → Res β} {y}, x.bind f = .ok y → ∃ z, x = .ok z ∧ f z = .ok y :=
    fun h => Res.bind_eq_ok.1 h
  have att : ∀ (l : Locks) (p u : Nat), u ≠ t → ((l.attempt t p).1.wait u).isSome = (l.wait u).isSome := by
    intro l p u hu
    rw [C71.attempt_wait]
    simp [hu]
  simp only [Access.step] at h
  cases ht : (s.th t).todo with
  | nil => rw [ht] at h; cases h; exact ⟨fun _ _ => rfl, .inr ⟨rfl, by intro i ty k v e; cases e⟩⟩
  | cons x k =>
    rw [ht] at h
    cases x with
    | lock i ty =>
      dsimp only at h
      cases hs : (s.th t).slot i with
      | none =>
        rw [hs] at h; cases h
        refine ⟨fun _ _ => rfl, .inr ⟨rfl, ?_⟩⟩
        intro i' ty' k' v e
        injection e with e1 e2
        injection e1 with e3 e4
        subst e3
        rw [hs]; simp
      | some v =>
        rw [hs] at h
        dsimp only at h
        split at h
        case isFalse => cases h
        cases hw : s.locks.wait t with
        | some q =>
          obtain ⟨p, b⟩ := q
          rw [hw] at h
          dsimp only at h
          split at h
          · injection h with h
            subst h
            simp only [Locks.wake, hw]
            refine ⟨fun u hu => att _ _ _ hu, .inl ⟨i, ty, k, v, rfl, hs, ?_⟩⟩
            generalize hl : ({ lock := s.locks.setLock p _, wait := s.locks.wait } : Locks) = l
            cases hk : (l.lock p).locker with
            | none =>
              left
              simp [Locks.attempt, hk, Access.done, Access.setTh, Locks.setWait]
            | some z =>
              right
              simp [Locks.attempt, hk, Locks.setWait, ht]
          · injection h with h
            subst h
            exact ⟨fun _ _ => rfl, .inl ⟨i, ty, k, v, rfl, hs, .inr ⟨ht, fun _ => by simp [hw]⟩⟩⟩
        | none =>
          rw [hw] at h
          dsimp only at h
          injection h with h
          subst h
          simp only [Locks.lockage_lock]
          by_cases hl : (s.locks.lock (lockOf v.ref ty)).locker = some t
          · simp only [hl, if_true]
            refine ⟨by simp, .inl ⟨i, ty, k, v, rfl, hs, .inl ⟨?_, hw⟩⟩⟩
            simp [Access.done, Access.setTh]
          · simp only [hl, if_false]
            refine ⟨fun u hu => att _ _ _ hu, .inl ⟨i, ty, k, v, rfl, hs, ?_⟩⟩
            cases hk : (s.locks.lock (lockOf v.ref ty)).locker with
            | none =>
              left
              simp [Locks.attempt, hk, Access.done, Access.setTh, Locks.setWait]
            | some z =>
              right
              simp [Locks.attempt, hk, ht]
    | unlock i ty =>
      dsimp only at h
      split at h
      · cases h; exact ⟨fun _ _ => rfl, .inr ⟨rfl, by intro i ty k v e; cases e⟩⟩
      · split at h
        · cases h
          exact ⟨fun _ _ => unlock_some _ _ _, .inr ⟨unlock_some _ _ _, by intro i ty k v e; cases e⟩⟩
        · cases h
    | _ =>
      have e : s'.locks = s.locks := by
        dsimp only at h
        repeat' split at h
        all_goals first
          | (injection h with h; subst h; rfl)
          | (obtain ⟨z, _, h⟩ := hb h; injection h with h; subst h; rfl)
          | cases h
      rw [e]
      exact ⟨fun _ _ => rfl, .inr ⟨rfl, by intro i ty k v e; cases e⟩⟩

theorem setCode_same (s : State) (t : Nat) (k : List Code) : setCode s t k t = k := if_pos rfl
theorem setCode_ne (s : State) {t u : Nat} (k : List Code) (h : u ≠ t) : setCode s t k u = s.code u := if_neg h

def updB (m : Nat → Bool) (t : Nat) (b : Bool) : Nat → Bool := fun u => if u = t then b else m u

section steps
variable {single : Bool} {n : Nat} {s : State} {d : Nat → Nat → Nat} {a : Nat → TA} {R : List (Nat × Option Nat)}
  {m : Nat → Bool}

/-- The mutex is taken or given back. -/
theorem inv_mutex (h : Inv single n s d a R m) {t : Nat} {c : Code} {k} (hc : s.code t = c :: k)
    (hb : c.base = none) (b : Bool) (hk : xcheck single (a t) b k) (q : Option Nat)
    (hq : ∀ u, q = some u ↔ updB m t b u = true ∧ s.base.locks.wait u = none) :
    Inv single n ⟨s.base, q, setCode s t k⟩ d a R (updB m t b) := by
  have hl : ∀ i ty fn, c ≠ .op (.lock i ty) fn := by
    intro i ty fn e; subst e; cases hb
  refine ⟨h.base, ?_, ?_, ?_, hq⟩
  · intro u
    by_cases e : u = t
    · subst e
      dsimp only
      rw [setCode_same, h.todo u, hc, List.filterMap_cons, hb]
    · dsimp only
      rw [setCode_ne s k e]; exact h.todo u
  · intro u
    by_cases e : u = t
    · subst e
      dsimp only
      rw [setCode_same]; simpa [updB] using hk
    · dsimp only
      rw [setCode_ne s k e]; simpa [updB, e] using h.chk u
  · intro u hu
    by_cases e : u = t
    · subst e
      have := h.awake hc hl
      dsimp only at hu
      rw [this] at hu; cases hu
    · dsimp only
      rw [setCode_ne s k e]; exact h.waits u hu

/-- A step of `Access`. -/
theorem inv_step (h : Inv single n s d a R m) {t : Nat} {c : Code} {x : Instr} {k} (hc : s.code t = c :: k)
    (hx : c.base = some x) (htn : t < n) (hnest : ¬ Nests s t) (w : Bool)
    (hm : xcheck single (nextA (a t) x) (m t) k)
    (hlock : ∀ i ty, x = .lock i ty → m t = true)
    (hblk : ¬ ((s.base.locks.wait t).isSome = true ∧ s.mutex.isSome = true)) :
    ∃ s', ((Access.step s.base t w).bind fun b =>
        if (b.th t).todo.length < (s.base.th t).todo.length then
          .ok ⟨b, if (s.base.locks.wait t).isSome then some t else s.mutex, setCode s t k⟩
        else
          .ok ⟨b, if (b.locks.wait t).isSome ∧ s.mutex = some t then none else s.mutex, s.code⟩) = .ok s' ∧
      ∃ d a R m, Inv single n s' d a R m := by
  have ht : (s.base.th t).todo = x :: k.filterMap Code.base := by
    rw [h.todo t, hc, List.filterMap_cons, hx]
  have hop : ∀ i ty, x = .lock i ty → ∃ fn, c = .op (.lock i ty) fn := by
    intro i ty e
    subst e
    cases c with
    | mutex_lock => cases hx
    | mutex_unlock => cases hx
    | op y fn => injection hx with hx; subst hx; exact ⟨fn, rfl⟩
    | use i fn acc => injection hx with hx; cases hx
    | look fn p acc => injection hx with hx; cases hx
  have hn : ¬ C71.Nests s.base t := by
    rintro ⟨i, ty, k', v, e1, e2, e3⟩
    rw [ht] at e1
    injection e1 with e1 _
    obtain ⟨fn, e4⟩ := hop i ty e1
    subst e4
    exact hnest ⟨i, ty, fn, k, v, hc, e2, e3⟩
  obtain ⟨b, hb, d', a', R', hadv, hinv⟩ := C71.step_goes h.base htn hn w
  obtain ⟨hwu, hwt⟩ := step_wait hb
  have hwaitlock : (s.base.locks.wait t).isSome = true → ∃ i ty, x = .lock i ty := by
    intro e
    cases hw : s.base.locks.wait t with
    | none => rw [hw] at e; cases e
    | some q =>
      obtain ⟨i, ty, k', v, e1, _⟩ := h.base.lk.wait t q.1 q.2 hw
      rw [ht] at e1
      injection e1 with e1 _
      exact ⟨i, ty, e1⟩
  have hnone : ∀ {u}, u ≠ t → (b.locks.wait u = none ↔ s.base.locks.wait u = none) := by
    intro u hu
    have := hwu u hu
    rw [← Option.isNone_iff_eq_none, ← Option.isNone_iff_eq_none, ← Option.not_isSome, ← Option.not_isSome, this]
  rw [hb, Res.bind_ok]
  rcases hadv with ⟨ha, hth⟩ | ⟨y, k', e1, ha, e2, hth⟩
  · -- nothing done
    rw [if_neg (by rw [hth]; omega)]
    refine ⟨_, rfl, d', a', R', m, hinv, ?_, ?_, ?_, ?_⟩
    · intro u; dsimp only; rw [hth]; exact h.todo u
    · intro u; rw [ha]; exact h.chk u
    · intro u hu
      dsimp only at hu ⊢
      by_cases e : u = t
      · subst e
        cases hw : b.locks.wait u with
        | none => rw [hw] at hu; cases hu
        | some q =>
          obtain ⟨i, ty, k', v, e1, _⟩ := hinv.lk.wait u q.1 q.2 hw
          rw [hth, ht] at e1
          injection e1 with e1 _
          obtain ⟨fn, e4⟩ := hop i ty e1
          subst e4
          exact ⟨i, ty, fn, k, hc⟩
      · exact h.waits u (by rw [← hwu u e]; exact hu)
    · intro u
      dsimp only
      by_cases e : u = t
      · subst e
        by_cases hw : (b.locks.wait u).isSome = true
        · have hne : b.locks.wait u ≠ none := by intro e; rw [e] at hw; cases hw
          simp only [hw, true_and, hne, and_false, iff_false]
          split
          · intro e; cases e
          · assumption
        · have hne : b.locks.wait u = none := by simpa using hw
          rw [if_neg (fun e => hw e.1), h.mx u]
          simp only [hne, and_true]
          have : s.base.locks.wait u = none := by
            cases hws : s.base.locks.wait u with
            | none => rfl
            | some q =>
              exfalso
              rcases hwt with ⟨i, ty, k'', v, f1, f2, f3 | f3⟩ | ⟨f1, _⟩
              · have := f3.1
                rw [hth, f1] at this
                have := congrArg List.length this
                simp at this
              · have := f3.2 (by rw [hws]; rfl)
                exact hw this
              · rw [hws] at f1; exact hw f1
          exact ⟨fun e => e.1, fun e => ⟨e, this⟩⟩
      · rw [hnone e, ← h.mx u]
        split
        · rename_i hh
          rw [hh.2]
          exact ⟨fun e' => (by cases e'), fun e' => by injection e' with e'; exact absurd e'.symm e⟩
        · exact Iff.rfl
  · -- done
    rw [ht] at e1
    injection e1 with e1 e3
    subst e1 e3
    rw [if_pos (by rw [e2, ht]; simp)]
    have hwt' : b.locks.wait t = none := by
      rcases hwt with ⟨i, ty, k'', v, f1, f2, f3 | f3⟩ | ⟨f1, f2⟩
      · exact f3.2
      · have := f3.1
        rw [e2, ← f1, ht] at this
        have := congrArg List.length this
        simp at this
      · cases hw : s.base.locks.wait t with
        | none => rw [hw] at f1; simpa using f1
        | some q =>
          obtain ⟨i, ty, k', v, g1, g2, _⟩ := h.base.lk.wait t q.1 q.2 hw
          exact absurd g2 (f2 i ty k' v g1)
    refine ⟨_, rfl, d', a', R', m, hinv, ?_, ?_, ?_, ?_⟩
    · intro u
      by_cases e : u = t
      · subst e; dsimp only; rw [setCode_same, e2]
      · dsimp only; rw [setCode_ne s k e, hth u e]; exact h.todo u
    · intro u
      by_cases e : u = t
      · subst e; dsimp only; rw [setCode_same, ha, upd_same]; exact hm
      · dsimp only; rw [setCode_ne s k e, ha, upd_ne _ _ e]; exact h.chk u
    · intro u hu
      dsimp only at hu ⊢
      by_cases e : u = t
      · subst e; rw [hwt'] at hu; cases hu
      · rw [setCode_ne s k e]; exact h.waits u (by rw [← hwu u e]; exact hu)
    · intro u
      dsimp only
      by_cases hw : (s.base.locks.wait t).isSome = true
      · have hmn : s.mutex = none := by
          cases hq : s.mutex with
          | none => rfl
          | some z => exact absurd ⟨hw, by rw [hq]; rfl⟩ hblk
        rw [if_pos hw]
        by_cases e : u = t
        · subst e
          obtain ⟨i, ty, e4⟩ := hwaitlock hw
          exact ⟨fun _ => ⟨hlock i ty e4, hwt'⟩, fun _ => rfl⟩
        · rw [hnone e, ← h.mx u, hmn]
          exact ⟨fun e' => by injection e' with e'; exact absurd e'.symm e, fun e' => by cases e'⟩
      · rw [if_neg hw]
        by_cases e : u = t
        · subst e
          rw [hwt', h.mx u]
          have : s.base.locks.wait u = none := by simpa using hw
          rw [this]
        · rw [hnone e, ← h.mx u]

theorem step_inv (h : Inv single n s d a R m) {t : Nat} (htn : t < n) (hnest : ¬ Nests s t) (w : Bool) :
    ∃ s', step s t w = .ok s' ∧ ∃ d a R m, Inv single n s' d a R m := by
  have hchk := h.chk t
  simp only [step]
  cases hc : s.code t with
  | nil => exact ⟨s, rfl, d, a, R, m, h⟩
  | cons c k =>
    rw [hc] at hchk
    cases c with
    | mutex_lock =>
      have hw := h.awake hc (by intro i ty fn e; cases e)
      cases hq : s.mutex with
      | some z => exact ⟨s, rfl, d, a, R, m, h⟩
      | none =>
        refine ⟨_, rfl, d, a, R, updB m t true, inv_mutex h hc rfl true hchk.2 _ ?_⟩
        intro u
        by_cases e : u = t
        · subst e; simp [updB, hw]
        · simp only [updB, e, if_false]
          rw [← h.mx u, hq]
          exact ⟨fun e' => by injection e' with e'; exact absurd e'.symm e, fun e' => by cases e'⟩
    | mutex_unlock =>
      have hw := h.awake hc (by intro i ty fn e; cases e)
      have hq := (h.mx t).2 ⟨hchk.1, hw⟩
      dsimp only
      rw [if_pos hq]
      refine ⟨_, rfl, d, a, R, updB m t false, inv_mutex h hc rfl false hchk.2 _ ?_⟩
      intro u
      by_cases e : u = t
      · subst e; simp [updB]
      · simp only [updB, e, if_false]
        rw [← h.mx u, hq]
        exact ⟨fun e' => (by cases e'), fun e' => by injection e' with e'; exact absurd e'.symm e⟩
    | op x fn =>
      dsimp only
      split
      · exact ⟨s, rfl, d, a, R, m, h⟩
      · refine inv_step h hc rfl htn hnest w hchk.2.2 ?_ (by assumption)
        intro i ty e; subst e; exact hchk.2.1
    | use i fn acc =>
      dsimp only
      split
      · exact ⟨s, rfl, d, a, R, m, h⟩
      · exact inv_step (x := .use i) h hc rfl htn hnest w hchk.2.2 (by intro i ty e; cases e) (by assumption)
    | look fn p acc =>
      dsimp only
      split
      · exact ⟨s, rfl, d, a, R, m, h⟩
      · exact inv_step (x := .look) h hc rfl htn hnest w hchk.2.2 (by intro i ty e; cases e) (by assumption)

theorem single_calm {n s d a R m} (h : Inv true n s d a R m) (t : Nat) : ¬ Nests s t := by
  rintro ⟨i, ty, fn, k, v, hc, hs, hl⟩
  refine C71.single_calm h.base t ⟨i, ty, k.filterMap Code.base, v, ?_, hs, hl⟩
  rw [h.todo t, hc]
  rfl

theorem run_calm (sched : List (Nat × Bool)) : ∀ {s d a R m}, Inv single n s d a R m → (∀ x ∈ sched, x.1 < n) →
    Calm s sched → ∃ s', run s sched = .ok s' ∧ ∃ d a R m, Inv single n s' d a R m := by
  induction sched with
  | nil => intro s d a R m h _ _; exact ⟨s, rfl, d, a, R, m, h⟩
  | cons x l ih =>
    intro s d a R m h hn hc
    obtain ⟨t, w⟩ := x
    obtain ⟨s', e, d', a', R', m', h'⟩ := step_inv h (hn _ (List.mem_cons_self ..)) hc.1 w
    rw [run, e, Res.bind_ok]
    exact ih h' (fun x hx => hn x (List.mem_cons_of_mem _ hx)) (hc.2 s' e)

theorem calm_single {n} (sched : List (Nat × Bool)) : ∀ {s d a R m}, Inv true n s d a R m → (∀ x ∈ sched, x.1 < n) →
    Calm s sched := by
  induction sched with
  | nil => intro s d a R m h _; trivial
  | cons x l ih =>
    intro s d a R m h hn
    obtain ⟨t, w⟩ := x
    refine ⟨single_calm h t, ?_⟩
    intro s' e
    obtain ⟨s'', e', d', a', R', m', h'⟩ := step_inv h (hn _ (List.mem_cons_self ..)) (single_calm h t) w
    rw [e] at e'
    injection e' with e'
    subst e'
    exact ih h' (fun x hx => hn x (List.mem_cons_of_mem _ hx))

theorem inv_start (prog : Nat → List Call)
    (h : ∀ t, xcheck single C71.zero false ((prog t).flatMap Call.code)) :
    Inv single n (start prog) (fun _ _ => 0) (fun _ => C71.zero) [] (fun _ => false) := by
  refine ⟨?_, fun _ => rfl, h, ?_, ?_⟩
  · have h0 := C71.inv_start single n (fun _ => []) (fun _ => by trivial)
    exact ⟨fun t => xcheck_base _ (h t), ⟨h0.lk.locks, h0.lk.hold, h0.lk.one, fun t l b e => by cases e⟩,
      ⟨h0.ct.nodup, h0.ct.len, h0.ct.slot, h0.ct.pend, h0.ct.writer, h0.ct.alone⟩,
      ⟨h0.mm.occ, h0.mm.mapped, h0.mm.inmap, h0.mm.gone, h0.mm.plive, h0.mm.pinj, h0.mm.rfresh, h0.mm.pfresh,
        h0.mm.cur, h0.mm.priv, h0.mm.privs⟩⟩
  · intro t e; cases e
  · intro t; simp [start]

end steps
end Verif.C74
