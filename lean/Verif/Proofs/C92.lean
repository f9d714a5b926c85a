import Verif.Spec.C92

/-! Lemmas for C92. -/
namespace Verif.C92
open Verif.Api

/-- The text after errors that were caught. -/
def lastText (t : Bytes) (ms : List Bytes) : Bytes := ms.foldl (fun _ m => m.take 255) t

theorem caught_ok (ms : List Bytes) : ∀ r : Runtime,
    r.caught ms = .ok { r with text := lastText r.text ms } := by
  induction ms with
  | nil => intro r; rfl
  | cons m ms ih =>
    intro r
    simp only [Runtime.caught, Runtime.enter, Runtime.throw, Runtime.leave, Res.bind_ok]
    rw [ih]; rfl

/-- The text after a body. -/
def after (t : Bytes) (b : Body) : Bytes :=
  match b.out with
  | .done _ => lastText t b.caught
  | .thrown m => m.take 255

/-- The value of a body. -/
def value (b : Body) : Option Int :=
  match b.out with
  | .done v => some v
  | .thrown _ => none

theorem guarded_ok (r : Runtime) (b : Body) :
    r.guarded b = .ok ({ r with text := after r.text b }, value b) := by
  unfold Runtime.guarded
  rw [caught_ok]
  cases h : b.out <;>
    simp [Runtime.enter, Runtime.throw, Runtime.leave, h, after, value]

theorem guardedCall_ok (w : World) (t env : Nat) (b : Body) :
    guardedCall w t env b = .ok (w.set t ⟨after [] b, [], some env⟩,
      .rc (match value b with | some v => v | none => -1)) := by
  unfold guardedCall
  rw [guarded_ok]; rfl

/-- What the memory has to do with the handles. -/
structure Inv (tr : List Entry) (w : World) : Prop where
  env : ∀ p, (p, none) ∈ held tr → ∃ c, w.memory p = some c ∧ c.type = OBJ
  cursor : ∀ p e, (p, some e) ∈ held tr → ∃ c, w.memory p = some c ∧ c.type = OBJ_CURSOR ∧ c.env = e
  known : ∀ p c, w.memory p = some c → ∃ k, (p, k) ∈ held tr
  nodup : ((held tr).map (·.1)).Nodup

/-- Cursors have their environments. -/
def Paired (tr : List Entry) (w : World) : Prop :=
  ∀ p e, (p, some e) ∈ held tr → (e, none) ∈ held tr ∧
    ∃ c k, w.memory p = some c ∧ w.memory e = some k ∧ k.born = c.born

theorem obj_ne : OBJ ≠ OBJ_CURSOR := by decide

theorem env_ok {tr w h} (hi : Inv tr w) (hh : (h, none) ∈ held tr) :
    ∃ c, w.memory h = some c ∧ c.type = OBJ ∧ w.env h = .ok c := by
  obtain ⟨c, h1, h2⟩ := hi.env h hh
  exact ⟨c, h1, h2, by simp [World.env, h1, h2]⟩

theorem cursor_ok {tr w p e} (hi : Inv tr w) (hp : Paired tr w) (hh : (p, some e) ∈ held tr) :
    ∃ c, w.memory p = some c ∧ c.type = OBJ_CURSOR ∧ c.env = e ∧ w.cursor p = .ok c := by
  obtain ⟨c, h1, h2, h3⟩ := hi.cursor p e hh
  obtain ⟨h4, c', k, h5, h6, h7⟩ := hp p e hh
  rw [h1] at h5; cases h5
  obtain ⟨k', h8, h9, h10⟩ := env_ok hi h4
  rw [h6] at h8; cases h8
  exact ⟨c, h1, h2, h3, by simp [World.cursor, h1, h2, h3, h10, h7]⟩

theorem unique {l : List (Nat × Option Nat)} (h : (l.map (·.1)).Nodup) {p k k'}
    (h1 : (p, k) ∈ l) (h2 : (p, k') ∈ l) : k = k' := by
  induction l with
  | nil => cases h1
  | cons x l ih =>
    simp only [List.map_cons, List.nodup_cons, List.mem_map, not_exists, not_and] at h
    rcases List.mem_cons.mp h1 with e1 | e1 <;> rcases List.mem_cons.mp h2 with e2 | e2
    · rw [← e1] at e2; cases e2; rfl
    · subst e1; exact (h.1 (p, k') e2 rfl).elim
    · subst e2; exact (h.1 (p, k) e1 rfl).elim
    · exact ih h.2 e1 e2

/-- Calls that change no memory and give no handle. -/
theorem inv_same {tr w w'} {e : Entry} (hi : Inv tr w) (hm : w'.memory = w.memory)
    (hh : held (e :: tr) = held tr) : Inv (e :: tr) w' :=
  ⟨fun p h => by rw [hm]; exact hi.env p (hh ▸ h), fun p k h => by rw [hm]; exact hi.cursor p k (hh ▸ h),
    fun p c h => by rw [hh]; exact hi.known p c (hm ▸ h), by rw [hh]; exact hi.nodup⟩

theorem paired_same {tr w w'} {e : Entry} (hi : Paired tr w) (hm : w'.memory = w.memory)
    (hh : held (e :: tr) = held tr) : Paired (e :: tr) w' := by
  intro p k h
  rw [hh] at h ⊢; rw [hm]; exact hi p k h

theorem fresh_not_held {tr w p} (hi : Inv tr w) (hf : w.memory p = none) : ∀ k, (p, k) ∉ held tr := by
  intro k h
  cases k with
  | none => obtain ⟨c, h1, _⟩ := hi.env p h; rw [hf] at h1; cases h1
  | some e => obtain ⟨c, h1, _⟩ := hi.cursor p e h; rw [hf] at h1; cases h1

/-- A handle is added. -/
theorem inv_add {tr w w'} {e : Entry} {p : Nat} {k : Option Nat} {c : Cell} (hi : Inv tr w)
    (hf : w.memory p = none) (hm : w'.memory = fun q => if q = p then some c else w.memory q)
    (hc : match k with | none => c.type = OBJ | some h => c.type = OBJ_CURSOR ∧ c.env = h)
    (hh : held (e :: tr) = (p, k) :: held tr) : Inv (e :: tr) w' := by
  have hn := fresh_not_held hi hf
  refine ⟨?_, ?_, ?_, ?_⟩
  · intro q h
    rw [hh] at h; rw [hm]
    rcases List.mem_cons.mp h with h | h
    · cases h; exact ⟨c, by simp, hc⟩
    · have : q ≠ p := fun e => hn _ (e ▸ h)
      simpa [this] using hi.env q h
  · intro q x h
    rw [hh] at h; rw [hm]
    rcases List.mem_cons.mp h with h | h
    · cases h; exact ⟨c, by simp, hc⟩
    · have : q ≠ p := fun e => hn _ (e ▸ h)
      simpa [this] using hi.cursor q x h
  · intro q d h
    rw [hm] at h; rw [hh]
    by_cases hq : q = p
    · exact ⟨k, by simp [hq]⟩
    · simp only [hq, if_false] at h
      obtain ⟨k', h⟩ := hi.known q d h
      exact ⟨k', List.mem_cons_of_mem _ h⟩
  · rw [hh, List.map_cons, List.nodup_cons]
    refine ⟨?_, hi.nodup⟩
    rw [List.mem_map]
    rintro ⟨⟨q, k'⟩, h, rfl⟩
    exact hn _ h

/-- A handle is freed. -/
theorem inv_remove {tr w w'} {e : Entry} {p : Nat} (hi : Inv tr w)
    (hm : w'.memory = fun q => if q = p then none else w.memory q)
    (hh : held (e :: tr) = (held tr).filter (fun x => x.1 ≠ p)) : Inv (e :: tr) w' := by
  refine ⟨?_, ?_, ?_, ?_⟩
  · intro q h
    rw [hh, List.mem_filter] at h; rw [hm]
    have : q ≠ p := by simpa using h.2
    simpa [this] using hi.env q h.1
  · intro q x h
    rw [hh, List.mem_filter] at h; rw [hm]
    have : q ≠ p := by simpa using h.2
    simpa [this] using hi.cursor q x h.1
  · intro q d h
    rw [hm] at h; rw [hh]
    by_cases hq : q = p
    · simp [hq] at h
    · simp only [hq, if_false] at h
      obtain ⟨k', h⟩ := hi.known q d h
      exact ⟨k', List.mem_filter.mpr ⟨h, by simpa using hq⟩⟩
  · rw [hh]
    exact hi.nodup.sublist (List.filter_sublist.map _)

/-- The memory a call leaves, and the runtime of its thread. -/
structure Did (tr : List Entry) (w : World) (t : Nat) (c : Call) (ret : Ret) (w' : World) : Prop where
  others : ∀ u, u ≠ t → w'.runtime u = w.runtime u
  inv : Inv tr w → Inv (⟨t, c, ret⟩ :: tr) w'

theorem put_memory (w : World) (p c) : (w.put p c).memory = fun q => if q = p then c else w.memory q := rfl
theorem set_memory (w : World) (t r) : (w.set t r).memory = w.memory := rfl

theorem guarded_did (tr : List Entry) {w t env b c w' ret} (hc : ∀ r, held (⟨t, c, r⟩ :: tr) = held tr)
    (h : guardedCall w t env b = .ok (w', ret)) : Did tr w t c ret w' := by
  rw [guardedCall_ok] at h
  simp only [Res.ok.injEq, Prod.mk.injEq] at h
  obtain ⟨rfl, rfl⟩ := h
  exact ⟨fun u hu => by simp [World.set, hu], fun hi => inv_same hi rfl (hc _)⟩

theorem put_none (w : World) (p : Nat) (c : Option Cell) (h : w.memory p = none) :
    (fun q => if q = p then none else if q = p then c else w.memory q) = w.memory := by
  funext q
  by_cases hq : q = p
  · simp [hq, h]
  · simp [hq]

theorem step_did (tr : List Entry) {w t c w' ret} (h : step w t c = .ok (w', ret)) :
    Did tr w t c ret w' := by
  cases c with
  | init mem b =>
    cases mem with
    | none => cases h; exact ⟨fun _ _ => rfl, fun hi => inv_same hi rfl rfl⟩
    | some p =>
      simp only [step] at h
      by_cases hp : p = 0 ∨ w.memory p ≠ none
      · rw [if_pos hp] at h; cases h
      rw [if_neg hp, guarded_ok] at h
      have hf : w.memory p = none := Classical.not_not.mp fun e => hp (.inr e)
      simp only [Res.bind_ok] at h
      cases hv : value b with
      | none =>
        rw [hv] at h; simp only [Res.ok.injEq, Prod.mk.injEq] at h
        obtain ⟨rfl, rfl⟩ := h
        exact ⟨fun u hu => by simp [World.set, World.put, hu],
          fun hi => inv_same hi (put_none w p _ hf) rfl⟩
      | some v =>
        rw [hv] at h; simp only [Res.ok.injEq, Prod.mk.injEq] at h
        obtain ⟨rfl, rfl⟩ := h
        exact ⟨fun u hu => by simp [World.set, World.put, hu],
          fun hi => inv_add (k := none) hi hf rfl rfl rfl⟩
  | open_ p b =>
    obtain ⟨_, _, h⟩ := Res.bind_eq_ok.mp h
    exact guarded_did tr (fun _ => rfl) h
  | execute p b =>
    obtain ⟨_, _, h⟩ := Res.bind_eq_ok.mp h
    exact guarded_did tr (fun _ => rfl) h
  | write p b =>
    obtain ⟨_, _, h⟩ := Res.bind_eq_ok.mp h
    exact guarded_did tr (fun _ => rfl) h
  | cursor p mem b =>
    obtain ⟨e, _, h⟩ := Res.bind_eq_ok.mp h
    cases mem with
    | none =>
      cases h; exact ⟨fun u hu => by simp [World.set, hu], fun hi => inv_same hi rfl rfl⟩
    | some q =>
      simp only at h
      by_cases hp : q = 0 ∨ w.memory q ≠ none
      · rw [if_pos hp] at h; cases h
      rw [if_neg hp, guarded_ok] at h
      have hf : w.memory q = none := Classical.not_not.mp fun e => hp (.inr e)
      simp only [Res.bind_ok] at h
      cases hv : value b with
      | none =>
        rw [hv] at h
        simp only [Runtime.enter, Runtime.leave, Res.bind_ok, Res.ok.injEq, Prod.mk.injEq] at h
        obtain ⟨rfl, rfl⟩ := h
        exact ⟨fun u hu => by simp [World.set, World.put, hu],
          fun hi => inv_same hi (put_none w q _ hf) rfl⟩
      | some v =>
        rw [hv] at h; simp only [Res.ok.injEq, Prod.mk.injEq] at h
        obtain ⟨rfl, rfl⟩ := h
        exact ⟨fun u hu => by simp [World.set, World.put, hu],
          fun hi => inv_add (k := some p) hi hf rfl ⟨rfl, rfl⟩ rfl⟩
  | read p b =>
    obtain ⟨_, _, h⟩ := Res.bind_eq_ok.mp h
    exact guarded_did tr (fun _ => rfl) h
  | next p b =>
    obtain ⟨_, _, h⟩ := Res.bind_eq_ok.mp h
    exact guarded_did tr (fun _ => rfl) h
  | free p =>
    simp only [step] at h
    cases hm : w.memory p with
    | none => rw [hm] at h; cases h
    | some c =>
      rw [hm] at h; simp only at h
      by_cases h1 : c.type = OBJ
      · rw [if_pos h1] at h
        simp only [Runtime.enter, Runtime.leave, Res.bind_ok, Res.ok.injEq, Prod.mk.injEq] at h
        obtain ⟨rfl, rfl⟩ := h
        exact ⟨fun u hu => by simp [World.set, World.put, hu], fun hi => inv_remove hi rfl rfl⟩
      rw [if_neg h1] at h
      by_cases h2 : c.type = OBJ_CURSOR
      · rw [if_pos h2] at h
        obtain ⟨k, _, h⟩ := Res.bind_eq_ok.mp h
        simp only [Runtime.enter, Runtime.leave, Res.bind_ok, Res.ok.injEq, Prod.mk.injEq] at h
        obtain ⟨rfl, rfl⟩ := h
        exact ⟨fun u hu => by simp [World.set, World.put, hu], fun hi => inv_remove hi rfl rfl⟩
      rw [if_neg h2] at h
      by_cases h3 : c.type = OBJ_FREED
      · rw [if_pos h3] at h; cases h
      · rw [if_neg h3] at h; cases h
  | error => cases h; exact ⟨fun _ _ => rfl, fun hi => inv_same hi rfl rfl⟩

theorem history_inv {may tr w} (h : History may tr w) : Inv tr w := by
  induction h with
  | start => exact ⟨nofun, nofun, nofun, by simp [held]⟩
  | call tr w t c w' ret _ _ hs ih => exact (step_did tr hs).inv ih

/-- The cursors and their environments, when a handle is added. -/
theorem paired_add {tr w w'} {e : Entry} {p : Nat} {k : Option Nat} {c : Cell} (hi : Inv tr w)
    (hp : Paired tr w) (hf : w.memory p = none)
    (hm : w'.memory = fun q => if q = p then some c else w.memory q)
    (hk : ∀ h, k = some h → (h, none) ∈ held tr ∧ ∃ d, w.memory h = some d ∧ d.born = c.born)
    (hh : held (e :: tr) = (p, k) :: held tr) : Paired (e :: tr) w' := by
  have hn := fresh_not_held hi hf
  intro q x h
  rw [hh] at h; rw [hm, hh]
  rcases List.mem_cons.mp h with h | h
  · injection h with h1 h2
    subst h1
    obtain ⟨h3, d, h4, h5⟩ := hk x h2.symm
    have : x ≠ q := fun e => hn _ (e ▸ h3)
    exact ⟨List.mem_cons_of_mem _ h3, c, d, by simp, by simp [this, h4], h5⟩
  · obtain ⟨h1, d, k', h2, h3, h4⟩ := hp q x h
    have e1 : q ≠ p := fun e => hn _ (e ▸ h)
    have e2 : x ≠ p := fun e => hn _ (e ▸ h1)
    exact ⟨List.mem_cons_of_mem _ h1, d, k', by simp [e1, h2], by simp [e2, h3], h4⟩

/-- And when one is freed that is no environment of a cursor. -/
theorem paired_remove {tr w w'} {e : Entry} {p : Nat} (hp : Paired tr w)
    (hm : w'.memory = fun q => if q = p then none else w.memory q)
    (hn : ∀ c, (c, some p) ∉ held tr)
    (hh : held (e :: tr) = (held tr).filter (fun x => x.1 ≠ p)) : Paired (e :: tr) w' := by
  intro q x h
  rw [hh, List.mem_filter] at h; rw [hm, hh]
  have e1 : q ≠ p := by simpa using h.2
  have e2 : x ≠ p := fun e => hn q (e ▸ h.1)
  obtain ⟨h1, d, k', h2, h3, h4⟩ := hp q x h.1
  exact ⟨List.mem_filter.mpr ⟨h1, by simpa using e2⟩, d, k', by simp [e1, h2], by simp [e2, h3], h4⟩

theorem guarded_paired {tr : List Entry} {w t env b c w' ret} (hp : Paired tr w)
    (hc : ∀ r, held (⟨t, c, r⟩ :: tr) = held tr)
    (h : guardedCall w t env b = .ok (w', ret)) : Paired (⟨t, c, ret⟩ :: tr) w' := by
  rw [guardedCall_ok] at h
  simp only [Res.ok.injEq, Prod.mk.injEq] at h
  obtain ⟨rfl, rfl⟩ := h
  exact paired_same hp rfl (hc _)

/-- What the application keeps to. -/
def Proper (tr : List Entry) (c : Call) : Prop := Holds tr c ∧ InOrder tr c

theorem step_paired {tr w t c w' ret} (hi : Inv tr w) (hp : Paired tr w) (hc : Proper tr c)
    (h : step w t c = .ok (w', ret)) : Paired (⟨t, c, ret⟩ :: tr) w' := by
  cases c with
  | init mem b =>
    cases mem with
    | none => cases h; exact paired_same hp rfl rfl
    | some p =>
      simp only [step] at h
      by_cases h0 : p = 0 ∨ w.memory p ≠ none
      · rw [if_pos h0] at h; cases h
      rw [if_neg h0, guarded_ok] at h
      have hf : w.memory p = none := Classical.not_not.mp fun e => h0 (.inr e)
      simp only [Res.bind_ok] at h
      cases hv : value b with
      | none =>
        rw [hv] at h; simp only [Res.ok.injEq, Prod.mk.injEq] at h
        obtain ⟨rfl, rfl⟩ := h
        exact paired_same hp (put_none w p _ hf) rfl
      | some v =>
        rw [hv] at h; simp only [Res.ok.injEq, Prod.mk.injEq] at h
        obtain ⟨rfl, rfl⟩ := h
        exact paired_add (k := none) hi hp hf rfl (fun _ h => by cases h) rfl
  | open_ p b =>
    obtain ⟨_, _, h⟩ := Res.bind_eq_ok.mp h
    exact guarded_paired hp (fun _ => rfl) h
  | execute p b =>
    obtain ⟨_, _, h⟩ := Res.bind_eq_ok.mp h
    exact guarded_paired hp (fun _ => rfl) h
  | write p b =>
    obtain ⟨_, _, h⟩ := Res.bind_eq_ok.mp h
    exact guarded_paired hp (fun _ => rfl) h
  | cursor p mem b =>
    obtain ⟨e, he, h⟩ := Res.bind_eq_ok.mp h
    cases mem with
    | none => cases h; exact paired_same hp rfl rfl
    | some q =>
      simp only at h
      by_cases h0 : q = 0 ∨ w.memory q ≠ none
      · rw [if_pos h0] at h; cases h
      rw [if_neg h0, guarded_ok] at h
      have hf : w.memory q = none := Classical.not_not.mp fun e => h0 (.inr e)
      simp only [Res.bind_ok] at h
      cases hv : value b with
      | none =>
        rw [hv] at h
        simp only [Runtime.enter, Runtime.leave, Res.bind_ok, Res.ok.injEq, Prod.mk.injEq] at h
        obtain ⟨rfl, rfl⟩ := h
        exact paired_same hp (put_none w q _ hf) rfl
      | some v =>
        rw [hv] at h; simp only [Res.ok.injEq, Prod.mk.injEq] at h
        obtain ⟨rfl, rfl⟩ := h
        refine paired_add (k := some p) hi hp hf rfl (fun x hx => ?_) rfl
        cases hx
        obtain ⟨d, h1, _, h3⟩ := env_ok hi hc.1
        rw [h3] at he; cases he
        exact ⟨hc.1, _, h1, rfl⟩
  | read p b =>
    obtain ⟨_, _, h⟩ := Res.bind_eq_ok.mp h
    exact guarded_paired hp (fun _ => rfl) h
  | next p b =>
    obtain ⟨_, _, h⟩ := Res.bind_eq_ok.mp h
    exact guarded_paired hp (fun _ => rfl) h
  | free p =>
    simp only [step] at h
    cases hm : w.memory p with
    | none => rw [hm] at h; cases h
    | some c =>
      rw [hm] at h; simp only at h
      by_cases h1 : c.type = OBJ
      · rw [if_pos h1] at h
        simp only [Runtime.enter, Runtime.leave, Res.bind_ok, Res.ok.injEq, Prod.mk.injEq] at h
        obtain ⟨rfl, rfl⟩ := h
        exact paired_remove hp rfl hc.2 rfl
      rw [if_neg h1] at h
      by_cases h2 : c.type = OBJ_CURSOR
      · rw [if_pos h2] at h
        obtain ⟨k, _, h⟩ := Res.bind_eq_ok.mp h
        simp only [Runtime.enter, Runtime.leave, Res.bind_ok, Res.ok.injEq, Prod.mk.injEq] at h
        obtain ⟨rfl, rfl⟩ := h
        exact paired_remove hp rfl hc.2 rfl
      rw [if_neg h2] at h
      by_cases h3 : c.type = OBJ_FREED
      · rw [if_pos h3] at h; cases h
      · rw [if_neg h3] at h; cases h
  | error => cases h; exact paired_same hp rfl rfl

theorem history_paired {tr w} (h : History Proper tr w) : Paired tr w := by
  induction h with
  | start => exact nofun
  | call tr w t c w' ret h0 hm hs ih => exact step_paired (history_inv h0) ih hm hs

/-- A proper call ends, unless malloc would return memory in use. -/
theorem step_safe {tr w} (hi : Inv tr w) (hp : Paired tr w) (t : Nat) (c : Call) (hc : Proper tr c) :
    (∃ r, step w t c = .ok r) ∨ step w t c = notNow := by
  cases c with
  | init mem b =>
    cases mem with
    | none => exact .inl ⟨_, rfl⟩
    | some p =>
      simp only [step]
      by_cases h0 : p = 0 ∨ w.memory p ≠ none
      · rw [if_pos h0]; exact .inr rfl
      rw [if_neg h0, guarded_ok]
      left
      cases value b <;> exact ⟨_, rfl⟩
  | open_ p b =>
    obtain ⟨_, _, _, h⟩ := env_ok hi hc.1
    left; simp only [step, h, Res.bind_ok, guardedCall_ok]; exact ⟨_, rfl⟩
  | execute p b =>
    obtain ⟨_, _, _, h⟩ := env_ok hi hc.1
    left; simp only [step, h, Res.bind_ok, guardedCall_ok]; exact ⟨_, rfl⟩
  | write p b =>
    obtain ⟨_, _, _, h⟩ := env_ok hi hc.1
    left; simp only [step, h, Res.bind_ok, guardedCall_ok]; exact ⟨_, rfl⟩
  | cursor p mem b =>
    obtain ⟨_, _, _, h⟩ := env_ok hi hc.1
    simp only [step, h, Res.bind_ok]
    cases mem with
    | none => exact .inl ⟨_, rfl⟩
    | some q =>
      simp only
      by_cases h0 : q = 0 ∨ w.memory q ≠ none
      · rw [if_pos h0]; exact .inr rfl
      rw [if_neg h0, guarded_ok]
      left
      cases value b <;> exact ⟨_, rfl⟩
  | read p b =>
    obtain ⟨e, he⟩ := hc.1
    obtain ⟨_, _, _, _, h⟩ := cursor_ok hi hp he
    left; simp only [step, h, Res.bind_ok, guardedCall_ok]; exact ⟨_, rfl⟩
  | next p b =>
    obtain ⟨e, he⟩ := hc.1
    obtain ⟨_, _, _, _, h⟩ := cursor_ok hi hp he
    left; simp only [step, h, Res.bind_ok, guardedCall_ok]; exact ⟨_, rfl⟩
  | free p =>
    obtain ⟨k, hk⟩ := hc.1
    left
    cases k with
    | none =>
      obtain ⟨c, h1, h2, _⟩ := env_ok hi hk
      simp only [step, h1, h2, if_true, Runtime.enter, Runtime.leave, Res.bind_ok]
      exact ⟨_, rfl⟩
    | some e =>
      obtain ⟨c, h1, h2, h3, h4⟩ := cursor_ok hi hp hk
      have h5 : c.type ≠ OBJ := by rw [h2]; decide
      simp only [step, h1, if_neg h5, h2, if_true, h4, Runtime.enter, Runtime.leave, Res.bind_ok]
      exact ⟨_, rfl⟩
  | error => exact .inl ⟨_, rfl⟩

/-- The text that a call leaves, and its answer. -/
theorem step_text {w t c w' ret} (h : step w t c = .ok (w', ret)) (hs : ¬ Starved c)
    (b : Body) (hb : body c = some b) : (w'.runtime t).text = after [] b ∧
      (∀ v, value b = some v → ret = .rc v ∨ ∃ p, ret = .handle (some p)) ∧
      (value b = none → Says ret) := by
  have g : ∀ env, guardedCall w t env b = .ok (w', ret) → (w'.runtime t).text = after [] b ∧
      (∀ v, value b = some v → ret = .rc v ∨ ∃ p, ret = .handle (some p)) ∧
      (value b = none → Says ret) := by
    intro env h
    rw [guardedCall_ok] at h
    simp only [Res.ok.injEq, Prod.mk.injEq] at h
    obtain ⟨rfl, rfl⟩ := h
    refine ⟨by simp [World.set], fun v hv => .inl (by rw [hv]), fun hv => by rw [hv]; rfl⟩
  cases c with
  | init mem b' =>
    cases hb
    cases mem with
    | none => exact absurd rfl hs
    | some p =>
      simp only [step] at h
      by_cases h0 : p = 0 ∨ w.memory p ≠ none
      · rw [if_pos h0] at h; cases h
      rw [if_neg h0, guarded_ok] at h
      simp only [Res.bind_ok] at h
      cases hv : value b with
      | none =>
        rw [hv] at h; simp only [Res.ok.injEq, Prod.mk.injEq] at h
        obtain ⟨rfl, rfl⟩ := h
        exact ⟨by simp [World.set, World.put, Runtime.init], fun _ h => (by cases h), fun _ => rfl⟩
      | some v =>
        rw [hv] at h; simp only [Res.ok.injEq, Prod.mk.injEq] at h
        obtain ⟨rfl, rfl⟩ := h
        exact ⟨by simp [World.set, Runtime.init], fun _ _ => .inr ⟨_, rfl⟩, fun h => (by cases h)⟩
  | open_ p b' => cases hb; obtain ⟨_, _, h⟩ := Res.bind_eq_ok.mp h; exact g _ h
  | execute p b' => cases hb; obtain ⟨_, _, h⟩ := Res.bind_eq_ok.mp h; exact g _ h
  | write p b' => cases hb; obtain ⟨_, _, h⟩ := Res.bind_eq_ok.mp h; exact g _ h
  | cursor p mem b' =>
    cases hb
    obtain ⟨e, he, h⟩ := Res.bind_eq_ok.mp h
    cases mem with
    | none => exact absurd rfl hs
    | some q =>
      simp only at h
      by_cases h0 : q = 0 ∨ w.memory q ≠ none
      · rw [if_pos h0] at h; cases h
      rw [if_neg h0, guarded_ok] at h
      simp only [Res.bind_ok] at h
      cases hv : value b with
      | none =>
        rw [hv] at h
        simp only [Runtime.enter, Runtime.leave, Res.bind_ok, Res.ok.injEq, Prod.mk.injEq] at h
        obtain ⟨rfl, rfl⟩ := h
        exact ⟨by simp [World.set, World.put, Runtime.init], fun _ h => (by cases h), fun _ => rfl⟩
      | some v =>
        rw [hv] at h; simp only [Res.ok.injEq, Prod.mk.injEq] at h
        obtain ⟨rfl, rfl⟩ := h
        exact ⟨by simp [World.set, Runtime.init], fun _ _ => .inr ⟨_, rfl⟩, fun h => (by cases h)⟩
  | read p b' => cases hb; obtain ⟨_, _, h⟩ := Res.bind_eq_ok.mp h; exact g _ h
  | next p b' => cases hb; obtain ⟨_, _, h⟩ := Res.bind_eq_ok.mp h; exact g _ h
  | free p => cases hb
  | error => cases hb

theorem free_text {w t p w' ret} (h : step w t (.free p) = .ok (w', ret)) :
    (w'.runtime t).text = [] ∧ ret = .nothing := by
  simp only [step] at h
  cases hm : w.memory p with
  | none => rw [hm] at h; cases h
  | some c =>
    rw [hm] at h; simp only at h
    by_cases h1 : c.type = OBJ
    · rw [if_pos h1] at h
      simp only [Runtime.enter, Runtime.leave, Res.bind_ok, Res.ok.injEq, Prod.mk.injEq] at h
      obtain ⟨rfl, rfl⟩ := h
      exact ⟨by simp [World.set, World.put, Runtime.init], rfl⟩
    rw [if_neg h1] at h
    by_cases h2 : c.type = OBJ_CURSOR
    · rw [if_pos h2] at h
      obtain ⟨k, _, h⟩ := Res.bind_eq_ok.mp h
      simp only [Runtime.enter, Runtime.leave, Res.bind_ok, Res.ok.injEq, Prod.mk.injEq] at h
      obtain ⟨rfl, rfl⟩ := h
      exact ⟨by simp [World.set, World.put, Runtime.init], rfl⟩
    rw [if_neg h2] at h
    by_cases h3 : c.type = OBJ_FREED
    · rw [if_pos h3] at h; cases h
    · rw [if_neg h3] at h; cases h

/-- A thread that makes no calls keeps its text. -/
theorem text_kept {may : List Entry → Call → Prop} (tr : List Entry) (e : Entry) (t : Nat) :
    ∀ mid w, History may (mid ++ e :: tr) w → (∀ x ∈ mid, x.thread = t → Asks x) →
    ∃ w1, History may (e :: tr) w1 ∧ (w.runtime t).text = (w1.runtime t).text := by
  intro mid
  induction mid with
  | nil => intro w h _; exact ⟨w, h, rfl⟩
  | cons x mid ih =>
    intro w h hq
    cases h with
    | call _ w0 u c _ ret h0 hm hs =>
      obtain ⟨w1, h1, h2⟩ := ih w0 h0 (fun y hy => hq y (List.mem_cons_of_mem _ hy))
      refine ⟨w1, h1, h2 ▸ ?_⟩
      by_cases hu : u = t
      · have := hq ⟨u, c, ret⟩ (by simp) hu
        cases this
        cases hs; rfl
      · rw [(step_did (mid ++ e :: tr) hs).others t (Ne.symm hu)]

end Verif.C92
