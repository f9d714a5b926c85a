import Verif.Proofs.C31
import Verif.Spec.C59

namespace Verif.C59
open Locks C31

/-- What a thread holds: partition locks, shared control locks, the exclusive
control lock. -/
structure Hold where
  held : List Nat
  sh : Nat
  ex : Bool

/-- A disciplined script for a thread that holds `g`. -/
def Ok (first : Bool) : Hold → List Act → Prop
  | g, [] => g.held = [] ∧ g.sh = 0 ∧ g.ex = false
  | g, .shared :: k => g.ex = false ∧ (first = true → g.held = [] ∧ g.sh = 0) ∧ Ok first { g with sh := g.sh + 1 } k
  | g, .exclusive :: k => g.ex = false ∧ g.held = [] ∧ g.sh = 0 ∧ Ok first { g with ex := true } k
  | g, .release :: k =>
    (g.ex = true ∧ g.held = [] ∧ g.sh = 0 ∧ Ok first { g with ex := false } k) ∨
    (g.ex = false ∧ 0 < g.sh ∧ Ok first { g with sh := g.sh - 1 } k)
  | g, .take l :: k => g.ex = false ∧ 0 < g.sh ∧ (∀ h ∈ g.held, h ≤ l) ∧ Ok first { g with held := l :: g.held } k
  | g, .give l :: k => g.ex = false ∧ l ∈ g.held ∧ Ok first { g with held := g.held.erase l } k

/-- What a thread holds after an operation. -/
def Hold.after (g : Hold) : Act → Hold
  | .shared => { g with sh := g.sh + 1 }
  | .exclusive => { g with ex := true }
  | .release => if g.ex then { g with ex := false } else { g with sh := g.sh - 1 }
  | .take l => { g with held := l :: g.held }
  | .give l => { g with held := g.held.erase l }

theorem ok_perm {first : Bool} : ∀ {k : List Act} {g : Hold} {h : List Nat}, g.held.Perm h → Ok first g k →
    Ok first { g with held := h } k := by
  intro k
  induction k with
  | nil =>
    intro g h hp ho
    simp only [Ok] at ho ⊢
    refine ⟨?_, ho.2⟩
    rw [ho.1] at hp
    exact hp.symm.eq_nil
  | cons a k ih =>
    intro g h hp ho
    have hnil : g.held = [] → h = [] := fun e => by rw [e] at hp; exact hp.symm.eq_nil
    cases a with
    | shared =>
      simp only [Ok] at ho ⊢
      exact ⟨ho.1, fun hf => ⟨hnil (ho.2.1 hf).1, (ho.2.1 hf).2⟩, ih (g := { g with sh := g.sh + 1 }) hp ho.2.2⟩
    | exclusive =>
      simp only [Ok] at ho ⊢
      exact ⟨ho.1, hnil ho.2.1, ho.2.2.1, ih (g := { g with ex := true }) hp ho.2.2.2⟩
    | release =>
      simp only [Ok] at ho ⊢
      rcases ho with ho | ho
      · exact .inl ⟨ho.1, hnil ho.2.1, ho.2.2.1, ih (g := { g with ex := false }) hp ho.2.2.2⟩
      · exact .inr ⟨ho.1, ho.2.1, ih (g := { g with sh := g.sh - 1 }) hp ho.2.2⟩
    | take l =>
      simp only [Ok] at ho ⊢
      exact ⟨ho.1, ho.2.1, fun x hx => ho.2.2.1 x (hp.mem_iff.2 hx),
        ih (g := { g with held := l :: g.held }) (hp.cons l) ho.2.2.2⟩
    | give l =>
      simp only [Ok] at ho ⊢
      exact ⟨ho.1, hp.mem_iff.1 ho.2.1, ih (g := { g with held := g.held.erase l }) (hp.erase l) ho.2.2⟩

def upd (g : Nat → Hold) (t : Nat) (x : Hold) : Nat → Hold := fun u => if u = t then x else g u

/-- Shared control locks held by the threads in `ts`. -/
def total (g : Nat → Hold) (ts : List Nat) : Nat := (ts.map (fun t => (g t).sh)).sum

theorem total_upd (g : Nat → Hold) (t : Nat) (x : Hold) (ts : List Nat) (hn : ts.Nodup) :
    (t ∈ ts → total (upd g t x) ts + (g t).sh = total g ts + x.sh) ∧ (t ∉ ts → total (upd g t x) ts = total g ts) := by
  induction ts with
  | nil => exact ⟨fun h => (List.not_mem_nil h).elim, fun _ => rfl⟩
  | cons a ts ih =>
    rw [List.nodup_cons] at hn
    obtain ⟨i1, i2⟩ := ih hn.2
    unfold total at *
    simp only [List.map_cons, List.sum_cons]
    constructor
    · intro h
      by_cases e : a = t
      · subst e
        have := i2 hn.1
        rw [this]
        simp only [upd, if_pos]
        omega
      · have := i1 ((List.mem_cons.1 h).resolve_left (fun e' => e e'.symm))
        have e3 : (upd g t x a).sh = (g a).sh := by simp only [upd, if_neg e]
        rw [e3]; omega
    · intro h
      have e : a ≠ t := fun e => h (by simp [e])
      rw [i2 (fun h' => h (List.mem_cons_of_mem _ h'))]
      simp only [upd, if_neg e]

structure Inv (first : Bool) (n : Nat) (g : Nat → Hold) (s : Threads) : Prop where
  base : Base n s.locks
  inside : ∀ p u, (s.locks.lock p).locker = some u → u < n
  own : ∀ p u, (s.locks.lock p).locker = some u → (s.locks.lock p).refs + 1 ≤ ((g u).held.count p : Int)
  refs : ∀ p, 0 ≤ (s.locks.lock p).refs
  ok : ∀ t, t < n → Ok first (g t) (s.rest t)
  want : ∀ t p b, s.locks.wait t = some (p, b) → ∃ k, s.rest t = .take p :: k
  readers : s.control.readers = total g (List.range n)
  writer : ∀ t, t < n → ((g t).ex = true ↔ s.control.writer = some t)
  winside : ∀ t, s.control.writer = some t → t < n
  alone : s.control.writer ≠ none → s.control.readers = 0
  waiting : ∀ t ∈ s.control.waiting, t < n ∧ ∃ k, s.rest t = .exclusive :: k

theorem sh_zero {first n g s} (h : Inv first n g s) (hr : s.control.readers = 0) (t : Nat) (ht : t < n) :
    (g t).sh = 0 := by
  have := h.readers
  have hz : total g (List.range n) = 0 := by omega
  have h1 : ∀ ts : List Nat, total g ts = 0 → ∀ t ∈ ts, (g t).sh = 0 := by
    intro ts
    induction ts with
    | nil => intro _ t ht; cases ht
    | cons a ts ih =>
      intro h0 t ht
      unfold total at h0 ih
      simp only [List.map_cons, List.sum_cons] at h0
      rcases List.mem_cons.1 ht with rfl | ht
      · omega
      · exact ih (by omega) t ht
  exact h1 _ hz t (List.mem_range.2 ht)

theorem sh_pos (g : Nat → Hold) : ∀ ts : List Nat, 0 < total g ts → ∃ t ∈ ts, 0 < (g t).sh := by
  intro ts
  induction ts with
  | nil => intro h; simp [total] at h
  | cons a ts ih =>
    intro h
    by_cases ha : 0 < (g a).sh
    · exact ⟨a, by simp, ha⟩
    · have : 0 < total g ts := by
        unfold total at h ⊢
        simp only [List.map_cons, List.sum_cons] at h
        omega
      obtain ⟨t, h1, h2⟩ := ih this
      exact ⟨t, List.mem_cons_of_mem _ h1, h2⟩

theorem total_range {n : Nat} (g : Nat → Hold) (t : Nat) (x : Hold) (ht : t < n) :
    total (upd g t x) (List.range n) + (g t).sh = total g (List.range n) + x.sh :=
  (total_upd g t x _ List.nodup_range).1 (List.mem_range.2 ht)

theorem no_wait {first n g s} (h : Inv first n g s) {t : Nat} {a : Act} {k : List Act} (hr : s.rest t = a :: k)
    (ha : ∀ p, a ≠ .take p) : s.locks.wait t = none := by
  cases hx : s.locks.wait t with
  | none => rfl
  | some x =>
    obtain ⟨k', e⟩ := h.want t x.1 x.2 hx
    rw [hr] at e
    exact absurd (List.cons.inj e).1 (ha _)

/-- A step on the control lock. -/
theorem inv_control {first n g s} (h : Inv first n g s) {t : Nat} (ht : t < n) {a : Act} {k : List Act}
    (hr : s.rest t = a :: k) (ha : ∀ p, a ≠ .take p) (c : Rwlock) (x : Hold)
    (hheld : x.held = (g t).held) (hok : Ok first x k)
    (hread : c.readers + (g t).sh = s.control.readers + x.sh)
    (hw : ∀ u, u < n → ((upd g t x u).ex = true ↔ c.writer = some u)) (hwi : ∀ u, c.writer = some u → u < n)
    (halone : c.writer ≠ none → c.readers = 0)
    (hwait : ∀ u ∈ c.waiting, u ∈ s.control.waiting ∧ u ≠ t) :
    Inv first n (upd g t x) { s with
      control := c,
      rest := s.setRest t k } := by
  have hwt := no_wait h hr ha
  refine ⟨h.base, h.inside, ?_, h.refs, ?_, ?_, ?_, hw, hwi, halone, ?_⟩
  · intro p u hu
    have := h.own p u hu
    dsimp only [upd]
    split
    · rename_i e; rw [hheld, ← e]; exact this
    · exact this
  · intro u hu
    dsimp only [upd, Threads.setRest]
    by_cases e : u = t
    · rw [if_pos e, if_pos e]; exact hok
    · rw [if_neg e, if_neg e]; exact h.ok u hu
  · intro u p b hu
    have := h.want u p b hu
    dsimp only [Threads.setRest]
    have e : u ≠ t := fun e => by rw [e, hwt] at hu; cases hu
    rw [if_neg e]; exact this
  · have h1 := total_range (n := n) g t x ht
    have h2 := h.readers
    dsimp only
    omega
  · intro u hu
    obtain ⟨h1, h2⟩ := hwait u hu
    dsimp only [Threads.setRest]
    rw [if_neg h2]
    exact h.waiting u h1

/-- A step on the partition locks that ends with the lock operation done. -/
theorem inv_locks {first n g s} (h : Inv first n g s) {t : Nat} (ht : t < n) {k : List Act}
    (hnx : ∀ k', s.rest t ≠ .exclusive :: k') (l : Locks) (x : Hold)
    (hsh : x.sh = (g t).sh) (hex : x.ex = (g t).ex) (hok : Ok first x k) (hb : Base n l)
    (hin : ∀ p u, (l.lock p).locker = some u → u < n)
    (hown : ∀ p u, (l.lock p).locker = some u → (l.lock p).refs + 1 ≤ ((upd g t x u).held.count p : Int))
    (hrefs : ∀ p, 0 ≤ (l.lock p).refs)
    (hwt : l.wait t = none) (hwu : ∀ u p b, u ≠ t → l.wait u = some (p, b) → ∃ b', s.locks.wait u = some (p, b')) :
    Inv first n (upd g t x) { s with
      locks := l,
      rest := s.setRest t k } := by
  refine ⟨hb, hin, hown, hrefs, ?_, ?_, ?_, ?_, h.winside, h.alone, ?_⟩
  · intro u hu
    dsimp only [upd, Threads.setRest]
    by_cases e : u = t
    · rw [if_pos e, if_pos e]; exact hok
    · rw [if_neg e, if_neg e]; exact h.ok u hu
  · intro u p b hu
    dsimp only [Threads.setRest]
    have e : u ≠ t := fun e => by rw [e, hwt] at hu; cases hu
    rw [if_neg e]
    obtain ⟨b', h1⟩ := hwu u p b e hu
    exact h.want u p b' h1
  · have h1 := total_range (n := n) g t x ht
    have h2 := h.readers
    dsimp only
    omega
  · intro u hu
    dsimp only [upd]
    split
    · rename_i e; rw [hex, ← e]; exact h.writer u hu
    · exact h.writer u hu
  · intro u hu
    obtain ⟨h1, k', h2⟩ := h.waiting u hu
    have e : u ≠ t := fun e => hnx k' (by rw [← e]; exact h2)
    dsimp only [Threads.setRest]
    rw [if_neg e]
    exact ⟨h1, k', h2⟩

theorem upd_held_other {g : Nat → Hold} {t u : Nat} {x : Hold} (e : u ≠ t) : upd g t x u = g u := by
  simp [upd, e]

/-- One pass of the lock loop, on a state whose lockers are those of `s`. -/
theorem inv_attempt {first n g s} (h : Inv first n g s) (l : Locks) {t p : Nat} {k : List Act} (ht : t < n)
    (hr : s.rest t = .take p :: k)
    (hlk : ∀ q, (l.lock q).locker = (s.locks.lock q).locker) (hrf : ∀ q, (l.lock q).refs = (s.locks.lock q).refs)
    (hwt : l.wait = s.locks.wait) (hb : Base n (attempt l t p).1) :
    Inv first n (if (attempt l t p).2 then upd g t ((g t).after (.take p)) else g) { s with
      locks := (attempt l t p).1,
      rest := if (attempt l t p).2 then s.setRest t k else s.rest } := by
  have hok := h.ok t ht
  rw [hr] at hok
  simp only [Ok] at hok
  obtain ⟨hex, hsh, _, hok⟩ := hok
  unfold attempt at *
  cases hl : (l.lock p).locker with
  | none =>
    rw [hl] at hb
    simp only [if_true] at hb ⊢
    refine inv_locks h ht (by rw [hr]; intro k' e; cases e) _ { g t with held := p :: (g t).held } rfl rfl hok hb
      ?_ ?_ ?_ ?_ ?_
    · intro q u hu
      dsimp only [setLock] at hu
      split at hu
      · cases hu; exact ht
      · rw [hlk] at hu; exact h.inside q u hu
    · intro q u hu
      dsimp only [setLock] at hu ⊢
      split at hu
      · rename_i e
        cases hu
        rw [if_pos e]
        simp only [upd, if_pos, e, List.count_cons_self]
        omega
      · rename_i e
        rw [hlk] at hu
        rw [if_neg e, hrf]
        have := h.own q u hu
        dsimp only [upd]
        split
        · rename_i e2
          rw [e2] at this
          dsimp only
          rw [List.count_cons_of_ne (fun e' => e e'.symm)]
          exact this
        · exact this
    · intro q
      dsimp only [setLock]
      split
      · exact Int.le_refl 0
      · rw [hrf]; exact h.refs q
    · simp [setWait]
    · intro u q b e hu
      dsimp only [setWait] at hu
      rw [if_neg e, hwt] at hu
      exact ⟨b, hu⟩
  | some y =>
    rw [hl] at hb
    simp only [Bool.false_eq_true, if_false] at hb ⊢
    have h3 : ∀ q, (setLock l p { l.lock p with pending := (l.lock p).pending + 1 } q).locker = (s.locks.lock q).locker := by
      intro q
      dsimp only [setLock]
      split
      · rename_i e; subst e; exact hlk q
      · exact hlk q
    have h4 : ∀ q, (setLock l p { l.lock p with pending := (l.lock p).pending + 1 } q).refs = (s.locks.lock q).refs := by
      intro q
      dsimp only [setLock]
      split
      · rename_i e; subst e; exact hrf q
      · exact hrf q
    refine ⟨hb, ?_, ?_, ?_, h.ok, ?_, h.readers, h.writer, h.winside, h.alone, h.waiting⟩
    · intro q u hu
      dsimp only at hu
      rw [h3] at hu
      exact h.inside q u hu
    · intro q u hu
      dsimp only at hu ⊢
      rw [h3] at hu
      rw [h4]
      exact h.own q u hu
    · intro q
      dsimp only
      rw [h4]; exact h.refs q
    · intro v q b hv
      dsimp only [setWait] at hv
      split at hv
      · rename_i e; subst e; cases hv; exact ⟨k, hr⟩
      · rw [hwt] at hv
        exact h.want v q b hv

/-- The thread waits, or its operation is done. -/
def Next (first : Bool) (n : Nat) (g : Nat → Hold) (s : Threads) (t : Nat) (a : Act) (k : List Act) (s' : Threads) : Prop :=
  (s'.rest = s.rest ∧ Inv first n g s') ∨ (s'.rest = s.setRest t k ∧ Inv first n (upd g t ((g t).after a)) s')

theorem next_attempt {first n g s t p k} (l : Locks) (b : Bool)
    (h : Inv first n (if b then upd g t ((g t).after (.take p)) else g) { s with
      locks := l,
      rest := if b then s.setRest t k else s.rest }) :
    Next first n g s t (.take p) k { s with
      locks := l,
      rest := if b then s.setRest t k else s.rest } := by
  cases b with
  | true => exact .inr ⟨rfl, h⟩
  | false => exact .inl ⟨rfl, h⟩

theorem inv_take {first n g s} (h : Inv first n g s) {t p : Nat} {k : List Act} (ht : t < n)
    (hr : s.rest t = .take p :: k) (b : Bool) :
    ∃ s', s.step first t b = .ok s' ∧ Next first n g s t (.take p) k s' := by
  unfold Threads.step
  rw [hr]
  dsimp only
  cases hwt : s.locks.wait t with
  | some x =>
    obtain ⟨q, c⟩ := x
    dsimp only
    have hq : q = p := by
      obtain ⟨k', e⟩ := h.want t q c hwt
      rw [hr] at e
      cases e
      rfl
    subst hq
    split
    · have hb := base_wake h.base t q c hwt
      unfold wake at hb ⊢
      rw [hwt] at hb ⊢
      dsimp only at hb ⊢
      have hg := inv_attempt h ⟨s.locks.setLock q ⟨(s.locks.lock q).locker, (s.locks.lock q).refs,
          (s.locks.lock q).pending - 1⟩, s.locks.wait⟩ ht hr (by
        intro q'; dsimp only [setLock]; split
        · rename_i e; rw [e]
        · rfl) (by
        intro q'; dsimp only [setLock]; split
        · rename_i e; rw [e]
        · rfl) rfl hb
      exact ⟨_, rfl, next_attempt _ _ hg⟩
    · exact ⟨_, rfl, .inl ⟨rfl, h⟩⟩
  | none =>
    dsimp only
    have hb := base_lock h.base t p ht hwt
    unfold lockage_lock at hb ⊢
    split
    · rename_i hl
      rw [if_pos hl] at hb
      have hok := h.ok t ht
      rw [hr] at hok
      simp only [Ok] at hok
      have hset : ∀ q, (setLock s.locks p { s.locks.lock p with refs := (s.locks.lock p).refs + 1 } q).locker = (s.locks.lock q).locker := by
        intro q; dsimp only [setLock]; split
        · rename_i e; rw [e]
        · rfl
      refine ⟨_, rfl, .inr ⟨rfl, inv_locks h ht (by rw [hr]; intro k' e; cases e) _ { g t with held := p :: (g t).held } rfl rfl
        hok.2.2.2 hb ?_ ?_ ?_ hwt (fun u q b _ hu => ⟨b, hu⟩)⟩⟩
      · intro q u hu
        dsimp only at hu
        rw [hset] at hu
        exact h.inside q u hu
      · intro q u hu
        dsimp only at hu
        rw [hset] at hu
        have := h.own q u hu
        dsimp only [setLock, upd]
        by_cases e : q = p
        · subst e
          rw [hl] at hu
          cases hu
          simp only [if_pos, List.count_cons_self]
          omega
        · rw [if_neg e]
          split
          · rename_i e2
            rw [e2] at this
            dsimp only
            rw [List.count_cons_of_ne (fun e' => e e'.symm)]
            exact this
          · exact this
      · intro q
        have := h.refs q
        dsimp only [setLock]
        split
        · rename_i e; subst e; dsimp only; omega
        · exact this
    · rename_i hl
      rw [if_neg hl] at hb
      have hg := inv_attempt h _ ht hr (fun _ => rfl) (fun _ => rfl) rfl hb
      exact ⟨_, rfl, next_attempt _ _ hg⟩

theorem inv_give {first n g s} (h : Inv first n g s) {t p : Nat} {k : List Act} (ht : t < n)
    (hr : s.rest t = .give p :: k) (b : Bool) :
    ∃ s', s.step first t b = .ok s' ∧ Next first n g s t (.give p) k s' := by
  unfold Threads.step
  rw [hr]
  dsimp only
  have hok := h.ok t ht
  rw [hr] at hok
  simp only [Ok] at hok
  obtain ⟨hex, hmem, hok⟩ := hok
  have hb := base_unlock h.base p
  have hwt := no_wait h hr (by intro q e; cases e)
  have hrel : ∀ q, ((lockage_unlock s.locks p).lock q).locker = (s.locks.lock q).locker ∧
        ((lockage_unlock s.locks p).lock q).refs = (s.locks.lock q).refs - (if p = q then 1 else 0 : Nat) ∧
        (p = q → 0 ≤ (s.locks.lock q).refs - 1)
      ∨ (p = q ∧ ((lockage_unlock s.locks p).lock q).locker = none ∧ ((lockage_unlock s.locks p).lock q).refs = 0) := by
    intro q
    unfold lockage_unlock
    dsimp only
    split
    · rename_i hgt
      left
      dsimp only [setLock]
      by_cases e : q = p
      · subst e; simp; omega
      · rw [if_neg e, if_neg (fun e' => e e'.symm)]
        exact ⟨rfl, by simp, fun e' => absurd e'.symm e⟩
    · by_cases e : q = p
      · right
        subst e
        split <;> simp [broadcast, setLock]
      · left
        have e2 : p ≠ q := fun e' => e e'.symm
        split <;> simp [broadcast, setLock, e, e2]
  have hwaits : ∀ v q b', (lockage_unlock s.locks p).wait v = some (q, b') → ∃ c, s.locks.wait v = some (q, c) := by
    intro v q b' hv
    unfold lockage_unlock at hv
    dsimp only at hv
    split at hv
    · exact ⟨b', hv⟩
    · split at hv
      · dsimp only [broadcast] at hv
        cases hx : s.locks.wait v with
        | none => rw [hx] at hv; cases hv
        | some y =>
          rw [hx] at hv
          simp only [Option.map_some, Option.some.injEq, Prod.mk.injEq] at hv
          exact ⟨y.2, by rw [← hv.1]⟩
      · exact ⟨b', hv⟩
  refine ⟨_, rfl, .inr ⟨rfl, inv_locks h ht (by rw [hr]; intro k' e; cases e) _ { g t with held := (g t).held.erase p } rfl rfl
    hok hb ?_ ?_ ?_ ?_ (fun u q b _ hu => hwaits u q b hu)⟩⟩
  · intro q u hu
    rcases hrel q with ⟨h1, h2, h3⟩ | ⟨_, h1, _⟩
    · rw [h1] at hu; exact h.inside q u hu
    · rw [h1] at hu; cases hu
  · intro q u hu
    rcases hrel q with ⟨h1, h2, h3⟩ | ⟨_, h1, _⟩
    · rw [h1] at hu
      have := h.own q u hu
      rw [h2]
      dsimp only [upd]
      by_cases e : p = q
      · subst e
        simp only [if_pos]
        split
        · rename_i e2
          rw [e2] at this
          dsimp only
          rw [List.count_erase_self]
          omega
        · omega
      · rw [if_neg e]
        split
        · rename_i e2
          rw [e2] at this
          dsimp only
          rw [List.count_erase_of_ne (fun e' => e e'.symm)]
          omega
        · omega
    · rw [h1] at hu; cases hu
  · intro q
    rcases hrel q with ⟨h1, h2, h3⟩ | ⟨_, _, h1⟩
    · rw [h2]
      have := h.refs q
      by_cases e : p = q
      · have := h3 e; simp [e]; omega
      · simp [e]; exact this
    · rw [h1]; omega
  · cases hx : (lockage_unlock s.locks p).wait t with
    | none => rfl
    | some y =>
      obtain ⟨c, hc⟩ := hwaits t y.1 y.2 hx
      rw [hwt] at hc; cases hc

theorem inv_next {first n g s} (h : Inv first n g s) (t : Nat) (b : Bool) (ht : t < n) {a : Act} {k : List Act}
    (hr : s.rest t = a :: k) :
    ∃ s', s.step first t b = .ok s' ∧ Next first n g s t a k s' := by
  have hok := h.ok t ht
  · rw [hr] at hok
    cases a with
    | take p => exact inv_take h ht hr b
    | give p => exact inv_give h ht hr b
    | shared =>
      simp only [Ok] at hok
      unfold Threads.step
      rw [hr]
      dsimp only
      unfold Rwlock.rdlock
      by_cases hc : s.control.writer = none ∧ (first = false ∨ s.control.waiting = [])
      · rw [if_pos hc]
        dsimp only
        refine ⟨_, rfl, .inr ⟨rfl, inv_control h ht hr (by intro p e; cases e) _ { g t with sh := (g t).sh + 1 } rfl hok.2.2
          (by dsimp only; omega) ?_ h.winside ?_ ?_⟩⟩
        · intro u hu
          dsimp only [upd]
          split
          · rename_i e; rw [← e]; exact h.writer u hu
          · exact h.writer u hu
        · intro hw; exact absurd hc.1 hw
        · intro u hu
          refine ⟨hu, fun e => ?_⟩
          obtain ⟨_, k', h2⟩ := h.waiting u hu
          rw [e, hr] at h2; cases h2
      · rw [if_neg hc]
        exact ⟨s, rfl, .inl ⟨rfl, h⟩⟩
    | exclusive =>
      simp only [Ok] at hok
      unfold Threads.step
      rw [hr]
      dsimp only
      unfold Rwlock.wrlock
      by_cases hc : s.control.writer = none ∧ s.control.readers = 0
      · rw [if_pos hc]
        dsimp only
        refine ⟨_, rfl, .inr ⟨rfl, inv_control h ht hr (by intro p e; cases e) _ { g t with ex := true } rfl hok.2.2.2
          rfl ?_ ?_ ?_ ?_⟩⟩
        · intro u hu
          dsimp only [upd]
          split
          · rename_i e; rw [e]; simp
          · rename_i e
            constructor
            · intro h1
              rw [h.writer u hu, hc.1] at h1; cases h1
            · intro h1; exact absurd (Option.some.inj h1).symm e
        · intro u hu; cases hu; exact ht
        · intro _; exact hc.2
        · intro u hu
          simp only [List.mem_filter, decide_eq_true_eq] at hu
          exact hu
      · rw [if_neg hc]
        refine ⟨_, rfl, .inl ⟨rfl, ?_⟩⟩
        have hsl : (s.control.sleep t).readers = s.control.readers ∧ (s.control.sleep t).writer = s.control.writer ∧
            ∀ u ∈ (s.control.sleep t).waiting, u ∈ s.control.waiting ∨ u = t := by
          unfold Rwlock.sleep
          split
          · exact ⟨rfl, rfl, fun u hu => .inl hu⟩
          · refine ⟨rfl, rfl, fun u hu => ?_⟩
            rcases List.mem_cons.1 hu with e | e
            · exact .inr e
            · exact .inl e
        refine ⟨h.base, h.inside, h.own, h.refs, h.ok, h.want, ?_, ?_, ?_, ?_, ?_⟩
        · dsimp only; rw [hsl.1]; exact h.readers
        · dsimp only; rw [hsl.2.1]; exact h.writer
        · dsimp only; rw [hsl.2.1]; exact h.winside
        · dsimp only; rw [hsl.1, hsl.2.1]; exact h.alone
        · intro u hu
          rcases hsl.2.2 u hu with h1 | h1
          · exact h.waiting u h1
          · subst h1; exact ⟨ht, k, hr⟩
    | release =>
      simp only [Ok] at hok
      unfold Threads.step
      rw [hr]
      dsimp only
      have hne : ∀ u ∈ s.control.waiting, u ≠ t := by
        intro u hu e
        obtain ⟨_, k', h2⟩ := h.waiting u hu
        rw [e, hr] at h2; cases h2
      rcases hok with ⟨hex, hh, hsh, hok⟩ | ⟨hex, hsh, hok⟩
      · have hw := (h.writer t ht).1 hex
        unfold Rwlock.unlock
        rw [hw]
        dsimp only
        have ha : (g t).after .release = { g t with ex := false } := by simp [Hold.after, hex]
        refine ⟨_, rfl, .inr ⟨rfl, ?_⟩⟩
        rw [ha]
        refine inv_control h ht hr (by intro p e; cases e) _ { g t with ex := false } rfl hok
          rfl ?_ (by intro u hu; cases hu) (by intro h1; exact absurd rfl h1) (fun u hu => ⟨hu, hne u hu⟩)
        intro u hu
        dsimp only [upd]
        split
        · simp
        · rename_i e
          rw [h.writer u hu, hw]
          constructor
          · intro h1; exact absurd (Option.some.inj h1).symm e
          · intro h1; cases h1
      · have hrd : 0 < s.control.readers := by
          rcases Nat.eq_zero_or_pos s.control.readers with h0 | h0
          · have := sh_zero h h0 t ht; omega
          · exact h0
        have hw : s.control.writer = none := by
          cases hx : s.control.writer with
          | none => rfl
          | some u => have := h.alone (by rw [hx]; simp); omega
        unfold Rwlock.unlock
        rw [hw]
        dsimp only
        cases hrr : s.control.readers with
        | zero => omega
        | succ m =>
          dsimp only
          have ha : (g t).after .release = { g t with sh := (g t).sh - 1 } := by simp [Hold.after, hex]
          refine ⟨_, rfl, .inr ⟨rfl, ?_⟩⟩
          rw [ha]
          refine inv_control h ht hr (by intro p e; cases e) _ { g t with sh := (g t).sh - 1 } rfl hok
            (by dsimp only; omega) ?_ (by intro u hu; dsimp only at hu; exact h.winside u (by rw [hw]; exact hu))
            (by intro h1; exact absurd rfl h1) (fun u hu => ⟨hu, hne u hu⟩)
          intro u hu
          dsimp only [upd]
          rw [← hw]
          split
          · rename_i e; rw [← e]; exact h.writer u hu
          · exact h.writer u hu

theorem inv_step {first n g s} (h : Inv first n g s) (t : Nat) (b : Bool) (ht : t < n) :
    ∃ s' g', s.step first t b = .ok s' ∧ Inv first n g' s' := by
  cases hr : s.rest t with
  | nil =>
    refine ⟨s, g, ?_, h⟩
    unfold Threads.step; rw [hr]
  | cons a k =>
    obtain ⟨s', h1, h2 | h2⟩ := inv_next h t b ht hr
    · exact ⟨s', g, h1, h2.2⟩
    · exact ⟨s', _, h1, h2.2⟩

theorem inv_run {first n} (sched : List (Nat × Bool)) : ∀ g s, Inv first n g s →
    ∃ s' g', run first n s sched = .ok s' ∧ Inv first n g' s' := by
  induction sched with
  | nil => intro g s h; exact ⟨s, g, rfl, h⟩
  | cons e sched ih =>
    intro g s h
    obtain ⟨t, b⟩ := e
    rw [run]
    split
    · rename_i ht
      obtain ⟨s1, g1, h1, h2⟩ := inv_step h t b ht
      rw [h1]
      exact ih g1 s1 h2
    · exact ih g s h

/-- The next step of `t` is done. -/
def Moves (first : Bool) (s : Threads) (t : Nat) : Prop :=
  ∃ s' a k, s.rest t = a :: k ∧ s.step first t false = .ok s' ∧ s'.rest = s.setRest t k

theorem moves_give {first s t p k} (hr : s.rest t = .give p :: k) : Moves first s t := by
  refine ⟨{ s with
    locks := s.locks.lockage_unlock p,
    rest := s.setRest t k }, _, _, hr, ?_, rfl⟩
  unfold Threads.step
  rw [hr]

theorem moves_release {first n g s t k} (h : Inv first n g s) (ht : t < n) (hr : s.rest t = .release :: k) :
    Moves first s t := by
  obtain ⟨s', g', h1, _⟩ := inv_step h t false ht
  refine ⟨s', _, _, hr, h1, ?_⟩
  unfold Threads.step at h1
  rw [hr] at h1
  dsimp only at h1
  split at h1
  · injection h1 with h1
    rw [← h1]
  · cases h1
  · cases h1
  · cases h1

theorem moves_shared {first s t k} (hr : s.rest t = .shared :: k) (hw : s.control.writer = none)
    (hf : first = false ∨ s.control.waiting = []) : Moves first s t := by
  refine ⟨{ s with
    control := { s.control with readers := s.control.readers + 1 },
    rest := s.setRest t k }, _, _, hr, ?_, rfl⟩
  unfold Threads.step
  rw [hr]
  dsimp only
  unfold Rwlock.rdlock
  rw [if_pos ⟨hw, hf⟩]

theorem moves_exclusive {first s t k} (hr : s.rest t = .exclusive :: k) (hw : s.control.writer = none)
    (h0 : s.control.readers = 0) : Moves first s t := by
  refine ⟨{ s with
    control := { s.control with
      writer := some t,
      waiting := s.control.waiting.filter (fun u => decide (u ≠ t)) },
    rest := s.setRest t k }, _, _, hr, ?_, rfl⟩
  unfold Threads.step
  rw [hr]
  dsimp only
  unfold Rwlock.wrlock
  rw [if_pos ⟨hw, h0⟩]

theorem attempt_free (l : Locks) (t p : Nat) (h : (l.lock p).locker = none) : (attempt l t p).2 = true := by
  unfold attempt; rw [h]

theorem moves_take_free {first n g s t p k} (h : Inv first n g s) (hr : s.rest t = .take p :: k)
    (hl : (s.locks.lock p).locker = none) : Moves first s t := by
  cases hx : s.locks.wait t with
  | none =>
    refine ⟨{ s with
      locks := (s.locks.lockage_lock t p).1,
      rest := if (s.locks.lockage_lock t p).2 then s.setRest t k else s.rest }, _, _, hr, ?_, ?_⟩
    · unfold Threads.step
      rw [hr]
      dsimp only
      rw [hx]
    · dsimp only
      unfold lockage_lock
      have hne : ¬ (s.locks.lock p).locker = some t := by rw [hl]; simp
      rw [if_neg hne, if_pos (attempt_free _ _ _ hl)]
  | some x =>
    obtain ⟨q, c⟩ := x
    obtain ⟨k', hq⟩ := h.want t q c hx
    rw [hr] at hq
    cases hq
    cases c with
    | false => exact absurd hl (h.base.free t p hx)
    | true =>
      refine ⟨{ s with
        locks := (s.locks.wake t).1,
        rest := if (s.locks.wake t).2 then s.setRest t k else s.rest }, _, _, hr, ?_, ?_⟩
      · unfold Threads.step
        rw [hr]
        dsimp only
        rw [hx]
        rfl
      · dsimp only
        unfold wake
        rw [hx]
        dsimp only
        rw [if_pos (attempt_free _ _ _ (by simp [setLock, hl]))]

theorem moves_take_own {first n g s t p k} (h : Inv first n g s) (hr : s.rest t = .take p :: k)
    (hl : (s.locks.lock p).locker = some t) : Moves first s t := by
  have hwt : s.locks.wait t = none := by
    cases hx : s.locks.wait t with
    | none => rfl
    | some x =>
      obtain ⟨k', e⟩ := h.want t x.1 x.2 hx
      rw [hr] at e
      have e2 : p = x.1 := by injection e with e; injection e
      exact absurd hl (h.base.notown t p x.2 (by rw [hx, e2]))
  refine ⟨{ s with
    locks := (s.locks.lockage_lock t p).1,
    rest := if (s.locks.lockage_lock t p).2 then s.setRest t k else s.rest }, _, _, hr, ?_, ?_⟩
  · unfold Threads.step
    rw [hr]
    dsimp only
    rw [hwt]
  · dsimp only
    unfold lockage_lock
    rw [if_pos hl, if_pos rfl]

/-- Of the threads that wait for partition locks, the holder of the highest such
lock can move. -/
theorem progress_take {first n g s} (h : Inv first n g s) (hw : s.control.writer = none) (M : Nat)
    (hM : ∀ t, t < n → ∀ p k, s.rest t = .take p :: k → p ≤ M) :
    ∀ d t p k, t < n → s.rest t = .take p :: k → M - p < d → ∃ v, v < n ∧ Moves first s v := by
  intro d
  induction d with
  | zero => intro t p k _ _ hd; omega
  | succ d ih =>
    intro t p k ht hr hd
    cases hl : (s.locks.lock p).locker with
    | none => exact ⟨t, ht, moves_take_free h hr hl⟩
    | some u =>
      have hun := h.inside p u hl
      have hown := h.own p u hl
      have href := h.refs p
      have hmem : p ∈ (g u).held := by rw [← List.count_pos_iff]; omega
      have hne : (g u).held ≠ [] := fun e => by rw [e] at hmem; cases hmem
      have hok := h.ok u hun
      cases hru : s.rest u with
      | nil => rw [hru] at hok; simp only [Ok] at hok; exact absurd hok.1 hne
      | cons a k' =>
        rw [hru] at hok
        cases a with
        | shared =>
          simp only [Ok] at hok
          refine ⟨u, hun, moves_shared hru hw (.inl ?_)⟩
          cases first with
          | false => rfl
          | true => exact absurd (hok.2.1 rfl).1 hne
        | exclusive => simp only [Ok] at hok; exact absurd hok.2.1 hne
        | release => exact ⟨u, hun, moves_release h hun hru⟩
        | give q => exact ⟨u, hun, moves_give hru⟩
        | take q =>
          simp only [Ok] at hok
          have hge := hok.2.2.1 p hmem
          by_cases e : q = p
          · subst e
            exact ⟨u, hun, moves_take_own h hru hl⟩
          · have := hM u hun q k' hru
            have := hM t ht p k hr
            exact ih u q k' hun hru (by omega)

theorem bound (s : Threads) (n : Nat) : ∃ M, ∀ t, t < n → ∀ p k, s.rest t = .take p :: k → p ≤ M := by
  induction n with
  | zero => exact ⟨0, by omega⟩
  | succ n ih =>
    obtain ⟨M, hM⟩ := ih
    cases hr : s.rest n with
    | nil =>
      refine ⟨M, fun t ht p k e => ?_⟩
      by_cases h : t = n
      · rw [h, hr] at e; cases e
      · exact hM t (by omega) p k e
    | cons a k' =>
      cases a with
      | take q =>
        refine ⟨M + q, fun t ht p k e => ?_⟩
        by_cases h : t = n
        · rw [h, hr] at e; cases e; omega
        · have := hM t (by omega) p k e; omega
      | _ =>
        refine ⟨M, fun t ht p k e => ?_⟩
        by_cases h : t = n
        · rw [h, hr] at e; cases e
        · exact hM t (by omega) p k e

theorem progress {first n g s} (h : Inv first n g s) (t : Nat) (ht : t < n) (hne : s.rest t ≠ []) :
    ∃ v, v < n ∧ Moves first s v := by
  cases hw : s.control.writer with
  | some u =>
    have hun := h.winside u hw
    have hex := (h.writer u hun).2 hw
    have hok := h.ok u hun
    cases hru : s.rest u with
    | nil => rw [hru] at hok; simp only [Ok] at hok; rw [hex] at hok; cases hok.2.2
    | cons a k =>
      rw [hru] at hok
      cases a with
      | release => exact ⟨u, hun, moves_release h hun hru⟩
      | shared => simp only [Ok] at hok; rw [hex] at hok; cases hok.1
      | exclusive => simp only [Ok] at hok; rw [hex] at hok; cases hok.1
      | take p => simp only [Ok] at hok; rw [hex] at hok; cases hok.1
      | give p => simp only [Ok] at hok; rw [hex] at hok; cases hok.1
  | none =>
    obtain ⟨M, hM⟩ := bound s n
    by_cases htake : ∃ u p k, u < n ∧ s.rest u = .take p :: k
    · obtain ⟨u, p, k, hun, hru⟩ := htake
      exact progress_take h hw M hM (M + 1) u p k hun hru (by omega)
    · have hex : ∀ u k, u < n → s.rest u = .exclusive :: k → ∃ v, v < n ∧ Moves first s v := by
        intro u k hun hru
        by_cases h0 : s.control.readers = 0
        · exact ⟨u, hun, moves_exclusive hru hw h0⟩
        · have hpos : 0 < total g (List.range n) := by have := h.readers; omega
          obtain ⟨v, hv, hsh⟩ := sh_pos g _ hpos
          rw [List.mem_range] at hv
          have hok := h.ok v hv
          cases hrv : s.rest v with
          | nil => rw [hrv] at hok; simp only [Ok] at hok; omega
          | cons a k' =>
            rw [hrv] at hok
            cases a with
            | release => exact ⟨v, hv, moves_release h hv hrv⟩
            | give p => exact ⟨v, hv, moves_give hrv⟩
            | take p => exact absurd ⟨v, p, k', hv, hrv⟩ htake
            | exclusive => simp only [Ok] at hok; omega
            | shared =>
              simp only [Ok] at hok
              refine ⟨v, hv, moves_shared hrv hw (.inl ?_)⟩
              cases first with
              | false => rfl
              | true => have := (hok.2.1 rfl).2; omega
      cases hr : s.rest t with
      | nil => exact absurd hr hne
      | cons a k =>
        cases a with
        | release => exact ⟨t, ht, moves_release h ht hr⟩
        | give p => exact ⟨t, ht, moves_give hr⟩
        | take p => exact absurd ⟨t, p, k, ht, hr⟩ htake
        | exclusive => exact hex t k ht hr
        | shared =>
          cases hwq : s.control.waiting with
          | nil => exact ⟨t, ht, moves_shared hr hw (.inr hwq)⟩
          | cons u us =>
            obtain ⟨h1, k', h2⟩ := h.waiting u (by rw [hwq]; simp)
            exact hex u k' h1 h2

/-- Work left over all threads. -/
def left (s : Threads) (ts : List Nat) : Nat := (ts.map (fun t => (s.rest t).length)).sum

theorem sum_lt (ts : List Nat) (f g : Nat → Nat) (h : ∀ t, f t ≤ g t) (t : Nat) (ht : t ∈ ts) (hlt : f t < g t) :
    (ts.map f).sum < (ts.map g).sum := by
  have hle : ∀ l : List Nat, (l.map f).sum ≤ (l.map g).sum := by
    intro l
    induction l with
    | nil => simp
    | cons a l ih => simp only [List.map_cons, List.sum_cons]; have := h a; omega
  induction ts with
  | nil => simp at ht
  | cons a ts ih =>
    simp only [List.map_cons, List.sum_cons]
    rcases List.mem_cons.1 ht with rfl | ht
    · have := hle ts; omega
    · have := ih ht; have := h a; omega

theorem finish {first n} : ∀ d g s, Inv first n g s → left s (List.range n) ≤ d →
    ∃ more, (∀ e ∈ more, e.2 = false) ∧ ∃ s', run first n s more = .ok s' ∧ ∀ t, t < n → s'.rest t = [] := by
  intro d
  induction d with
  | zero =>
    intro g s h hd
    refine ⟨[], by simp, s, rfl, fun t ht => ?_⟩
    cases hr : s.rest t with
    | nil => rfl
    | cons a k =>
      have := sum_lt (List.range n) (fun _ => 0) (fun t => (s.rest t).length) (by intro t; omega) t
        (List.mem_range.2 ht) (by rw [hr]; simp)
      unfold left at hd
      omega
  | succ d ih =>
    intro g s h hd
    by_cases hdone : ∀ t, t < n → s.rest t = []
    · exact ⟨[], by simp, s, rfl, hdone⟩
    · have : ∃ t, t < n ∧ s.rest t ≠ [] := by
        apply Classical.byContradiction
        intro hno
        apply hdone
        intro t ht
        exact Classical.byContradiction fun hn => hno ⟨t, ht, hn⟩
      obtain ⟨t, ht, htn⟩ := this
      obtain ⟨v, hv, s1, a, k, e1, e2, e3⟩ := progress h t ht htn
      obtain ⟨s2, g2, f1, f2⟩ := inv_step h v false hv
      rw [e2] at f1
      cases f1
      have hlt : left s1 (List.range n) < left s (List.range n) := by
        unfold left
        refine sum_lt _ _ _ ?_ v (List.mem_range.2 hv) ?_
        · intro u
          rw [e3]
          dsimp only [Threads.setRest]
          split
          · rename_i e; subst e; rw [e1]; simp
          · exact Nat.le_refl _
        · rw [e3]
          dsimp only [Threads.setRest]
          rw [if_pos rfl, e1]; simp
      obtain ⟨more, g1, s', g2', g3⟩ := ih _ _ f2 (by omega)
      refine ⟨(v, false) :: more, ?_, s', ?_, g3⟩
      · intro e he
        rcases List.mem_cons.1 he with rfl | he
        · rfl
        · exact g1 e he
      · rw [run, if_pos hv, e2]; exact g2'

def free : Hold := ⟨[], 0, false⟩

theorem inv_start (first : Bool) (n : Nat) (prog : Nat → List Call)
    (hok : ∀ t, t < n → Ok first free (acts (prog t))) : Inv first n (fun _ => free) (start prog) where
  base := base_init n
  inside := by intro p u h; simp [start, Locks.init] at h
  own := by intro p u h; simp [start, Locks.init] at h
  refs := by intro p; simp [start, Locks.init]
  ok := hok
  want := by intro w p b h; simp [start, Locks.init] at h
  readers := by
    have : ∀ ts : List Nat, total (fun _ => free) ts = 0 := by
      intro ts
      induction ts with
      | nil => rfl
      | cons a ts ih => unfold total at ih ⊢; simp only [List.map_cons, List.sum_cons]; rw [ih]; rfl
    rw [this]; rfl
  writer := by intro t _; simp [start, Rwlock.init, free]
  winside := by intro t h; simp [start, Rwlock.init] at h
  alone := by intro _; rfl
  waiting := by intro t h; simp [start, Rwlock.init] at h

theorem no_deadlock (first : Bool) (n : Nat) (prog : Nat → List Call)
    (hok : ∀ t, t < n → Ok first free (acts (prog t))) : NoDeadlock first n prog := by
  intro sched
  obtain ⟨s, g, h1, h2⟩ := inv_run sched _ _ (inv_start first n prog hok)
  exact ⟨s, h1, finish _ g s h2 (Nat.le_refl _)⟩

end Verif.C59
