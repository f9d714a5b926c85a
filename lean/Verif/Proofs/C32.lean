import Verif.Proofs.C31
import Verif.Spec.C32

namespace Verif.C32
open Locks C31

/-- Locks of `p` writer `w` has taken and not yet released. -/
def outst (batch : Nat → List Nat) (s : St) (w p : Nat) : Int :=
  ((batch w).take (s.taken w)).count p - ((batch w).take (s.freed w)).count p

structure Inv (n : Nat) (batch : Nat → List Nat) (s : St) : Prop where
  base : Base n s.locks
  inside : ∀ p u, (s.locks.lock p).locker = some u → u < n
  own : ∀ p u, (s.locks.lock p).locker = some u → (s.locks.lock p).refs + 1 ≤ outst batch s u p
  refs : ∀ p, 0 ≤ (s.locks.lock p).refs
  taken : ∀ w, s.taken w ≤ (batch w).length
  freed : ∀ w, s.freed w ≤ (batch w).length
  phase : ∀ w, 0 < s.freed w → s.taken w = (batch w).length
  want : ∀ w p b, s.locks.wait w = some (p, b) → (batch w)[s.taken w]? = some p

theorem take_count (l : List Nat) (i p q : Nat) (h : l[i]? = some q) :
    (l.take (i + 1)).count p = (l.take i).count p + (if q = p then 1 else 0) := by
  rw [List.take_succ, h, List.count_append]
  simp only [Option.toList_some, List.count_cons, List.count_nil, Nat.zero_add, beq_iff_eq]

theorem outst_inc_taken (batch : Nat → List Nat) (s : St) (l : Locks) (w q : Nat) (h : (batch w)[s.taken w]? = some q)
    (u p : Nat) : outst batch ⟨l, inc s.taken w, s.freed⟩ u p =
      outst batch s u p + (if u = w ∧ q = p then 1 else 0 : Nat) := by
  unfold outst inc
  dsimp only
  by_cases hu : u = w
  · subst hu
    rw [if_pos rfl, take_count _ _ _ _ h]
    by_cases hq : q = p
    · simp [hq]; omega
    · simp [hq]
  · rw [if_neg hu]; simp [hu]

theorem outst_inc_freed (batch : Nat → List Nat) (s : St) (l : Locks) (w q : Nat) (h : (batch w)[s.freed w]? = some q)
    (u p : Nat) : outst batch ⟨l, s.taken, inc s.freed w⟩ u p =
      outst batch s u p - (if u = w ∧ q = p then 1 else 0 : Nat) := by
  unfold outst inc
  dsimp only
  by_cases hu : u = w
  · subst hu
    rw [if_pos rfl, take_count _ _ _ _ h]
    by_cases hq : q = p
    · simp [hq]; omega
    · simp [hq]
  · rw [if_neg hu]; simp [hu]

theorem outst_locking {n batch s} (h : Inv n batch s) (w p : Nat) (hw : s.taken w < (batch w).length) :
    0 ≤ outst batch s w p ∧ s.freed w = 0 := by
  have hf : s.freed w = 0 := by
    rcases Nat.eq_zero_or_pos (s.freed w) with h1 | h1
    · exact h1
    · have := h.phase w h1; omega
  refine ⟨?_, hf⟩
  unfold outst
  rw [hf]
  simp

/-- One pass of the lock loop, on a state whose lockers are those of `s`. -/
theorem inv_attempt {n batch s} (h : Inv n batch s) (l : Locks) (w p : Nat) (hw : w < n)
    (hwant : (batch w)[s.taken w]? = some p)
    (hlk : ∀ q, (l.lock q).locker = (s.locks.lock q).locker) (hrf : ∀ q, (l.lock q).refs = (s.locks.lock q).refs)
    (hwt : l.wait = s.locks.wait) (hb : Base n (attempt l w p).1) :
    Inv n batch { s with locks := (attempt l w p).1, taken := if (attempt l w p).2 then inc s.taken w else s.taken } := by
  have hlt := (List.getElem?_eq_some_iff.1 hwant).1
  have hout := outst_locking h w p hlt
  unfold attempt at *
  cases hl : (l.lock p).locker with
  | none =>
    rw [hl] at hb
    simp only [if_true] at hb ⊢
    refine ⟨hb, ?_, ?_, ?_, ?_, h.freed, ?_, ?_⟩
    · intro q u hu
      dsimp only [setLock] at hu
      split at hu
      · cases hu; exact hw
      · rw [hlk] at hu; exact h.inside q u hu
    · intro q u hu
      rw [outst_inc_taken batch s _ w p hwant]
      dsimp only [setLock] at hu ⊢
      split at hu
      · rename_i e
        cases hu; subst e
        rw [if_pos rfl, if_pos ⟨rfl, rfl⟩]
        dsimp only
        omega
      · rename_i e
        rw [if_neg e, hrf]
        rw [hlk] at hu
        have := h.own q u hu
        rw [if_neg (fun e' => e e'.2.symm)]
        simpa using this
    · intro q
      dsimp only [setLock]
      split
      · exact Int.le_refl 0
      · rw [hrf]; exact h.refs q
    · intro v
      have := h.taken v
      dsimp only [inc]
      split
      · rename_i e; subst e; omega
      · exact this
    · intro v hv
      have := h.phase v hv
      dsimp only [inc]
      split
      · rename_i e; subst e; omega
      · exact this
    · intro v q b hv
      dsimp only [setWait] at hv
      split at hv
      · cases hv
      · rename_i e
        rw [hwt] at hv
        dsimp only [inc]
        rw [if_neg e]
        exact h.want v q b hv
  | some x =>
    rw [hl] at hb
    simp only [Bool.false_eq_true, if_false] at hb ⊢
    refine ⟨hb, ?_, ?_, ?_, h.taken, h.freed, h.phase, ?_⟩
    · intro q u hu
      dsimp only [setLock] at hu
      split at hu
      · rename_i e; subst e
        dsimp only at hu
        rw [hlk] at hu
        exact h.inside q u hu
      · rw [hlk] at hu; exact h.inside q u hu
    · intro q u hu
      have : (s.locks.lock q).locker = some u := by
        dsimp only [setLock] at hu
        split at hu
        · rename_i e; subst e; rw [← hlk]; exact hu
        · rw [← hlk]; exact hu
      have h2 := h.own q u this
      have h3 : (setLock l p { l.lock p with pending := (l.lock p).pending + 1 } q).refs = (s.locks.lock q).refs := by
        dsimp only [setLock]
        split
        · rename_i e; subst e; exact hrf q
        · exact hrf q
      dsimp only
      rw [h3]
      exact h2
    · intro q
      dsimp only [setLock]
      split
      · dsimp only; rw [hrf]; exact h.refs p
      · rw [hrf]; exact h.refs q
    · intro v q b hv
      dsimp only [setWait] at hv
      split at hv
      · rename_i e; subst e; cases hv; exact hwant
      · rw [hwt] at hv
        exact h.want v q b hv

theorem inv_step {n batch s} (h : Inv n batch s) (w : Nat) (b : Bool) (hw : w < n) : Inv n batch (step batch s w b) := by
  unfold step
  cases hwt : s.locks.wait w with
  | some x =>
    obtain ⟨p, c⟩ := x
    dsimp only
    split
    · have hb := base_wake h.base w p c hwt
      unfold wake at hb ⊢
      rw [hwt] at hb ⊢
      dsimp only at hb ⊢
      refine inv_attempt h _ w p hw (h.want w p c hwt) ?_ ?_ rfl hb
      · intro q; dsimp only [setLock]; split
        · rename_i e; rw [e]
        · rfl
      · intro q; dsimp only [setLock]; split
        · rename_i e; rw [e]
        · rfl
    · exact h
  | none =>
    dsimp only
    cases hp : (batch w)[s.taken w]? with
    | some p =>
      dsimp only
      have hb := base_lock h.base w p hw hwt
      unfold lockage_lock at hb ⊢
      split
      · rename_i hl
        rw [if_pos hl] at hb
        simp only [if_true]
        have hlt := (List.getElem?_eq_some_iff.1 hp).1
        have hset : ∀ q, (setLock s.locks p { s.locks.lock p with refs := (s.locks.lock p).refs + 1 } q).locker = (s.locks.lock q).locker := by
          intro q; dsimp only [setLock]; split
          · rename_i e; rw [e]
          · rfl
        refine ⟨hb, ?_, ?_, ?_, ?_, h.freed, ?_, ?_⟩
        · intro q u hu
          dsimp only at hu
          rw [hset] at hu
          exact h.inside q u hu
        · intro q u hu
          dsimp only at hu
          rw [hset] at hu
          have := h.own q u hu
          rw [outst_inc_taken batch s _ w p hp]
          dsimp only [setLock]
          by_cases e : q = p
          · subst e
            rw [hl] at hu
            cases hu
            simp
            omega
          · rw [if_neg e, if_neg (fun e' => e e'.2.symm)]
            simpa using this
        · intro q
          have := h.refs q
          dsimp only [setLock]
          split
          · rename_i e; subst e; dsimp only; omega
          · exact this
        · intro v
          have := h.taken v
          dsimp only [inc]
          split
          · rename_i e; subst e; omega
          · exact this
        · intro v hv
          have := h.phase v hv
          dsimp only [inc]
          split
          · rename_i e; subst e; omega
          · exact this
        · intro v q b' hv
          have := h.want v q b' hv
          dsimp only [inc]
          split
          · rename_i e; subst e; rw [hwt] at hv; cases hv
          · exact this
      · rename_i hl
        rw [if_neg hl] at hb
        exact inv_attempt h _ w p hw hp (fun _ => rfl) (fun _ => rfl) rfl hb
    | none =>
      dsimp only
      cases hf : (batch w)[s.freed w]? with
      | none => exact h
      | some p =>
        dsimp only
        have hb := base_unlock h.base p
        have hlt := (List.getElem?_eq_some_iff.1 hf).1
        have htk : s.taken w = (batch w).length := by
          have := h.taken w
          rw [List.getElem?_eq_none_iff] at hp
          omega
        have hrel : ∀ q, ((lockage_unlock s.locks p).lock q).locker = (s.locks.lock q).locker ∧
              ((lockage_unlock s.locks p).lock q).refs = (s.locks.lock q).refs - (if p = q then 1 else 0 : Nat) ∧
              (p = q → 0 ≤ (s.locks.lock q).refs - 1)
            ∨ (p = q ∧ ((lockage_unlock s.locks p).lock q).locker = none ∧ ((lockage_unlock s.locks p).lock q).refs = 0) := by
          intro q
          unfold lockage_unlock
          dsimp only
          split
          · rename_i hgt
            left
            dsimp only [setLock]
            by_cases e : q = p
            · subst e; simp; omega
            · rw [if_neg e, if_neg (fun e' => e e'.symm)]
              exact ⟨rfl, by simp, fun e' => absurd e'.symm e⟩
          · by_cases e : q = p
            · right
              subst e
              split <;> simp [broadcast, setLock]
            · left
              have e2 : p ≠ q := fun e' => e e'.symm
              split <;> simp [broadcast, setLock, e, e2]
        refine ⟨hb, ?_, ?_, ?_, h.taken, ?_, ?_, ?_⟩
        · intro q u hu
          rcases hrel q with ⟨h1, h2, h3⟩ | ⟨_, h1, _⟩
          · dsimp only at hu; rw [h1] at hu; exact h.inside q u hu
          · dsimp only at hu; rw [h1] at hu; cases hu
        · intro q u hu
          rcases hrel q with ⟨h1, h2, h3⟩ | ⟨_, h1, _⟩
          · dsimp only at hu ⊢
            rw [h1] at hu
            have := h.own q u hu
            rw [outst_inc_freed batch s _ w p hf, h2]
            by_cases e : p = q
            · by_cases eu : u = w
              · simp [e, eu]; rw [eu] at this; omega
              · simp [e, eu]; omega
            · simp [e]; exact this
          · dsimp only at hu; rw [h1] at hu; cases hu
        · intro q
          rcases hrel q with ⟨h1, h2, h3⟩ | ⟨_, _, h1⟩
          · dsimp only; rw [h2]
            have := h.refs q
            by_cases e : p = q
            · have := h3 e; simp [e]; omega
            · simp [e]; exact this
          · dsimp only; rw [h1]; omega
        · intro v
          have := h.freed v
          dsimp only [inc]
          split
          · rename_i e; subst e; omega
          · exact this
        · intro v hv
          dsimp only [inc] at hv ⊢
          split at hv
          · rename_i e; subst e; exact htk
          · exact h.phase v hv
        · intro v q b' hv
          have hwv : ∃ c, s.locks.wait v = some (q, c) := by
            dsimp only at hv
            unfold lockage_unlock at hv
            dsimp only at hv
            split at hv
            · exact ⟨b', hv⟩
            · split at hv
              · dsimp only [broadcast] at hv
                cases hx : s.locks.wait v with
                | none => rw [hx] at hv; cases hv
                | some y =>
                  rw [hx] at hv
                  simp only [Option.map_some, Option.some.injEq, Prod.mk.injEq] at hv
                  exact ⟨y.2, by rw [← hv.1]⟩
              · exact ⟨b', hv⟩
          obtain ⟨c, hc⟩ := hwv
          exact h.want v q c hc

theorem inv_init (n : Nat) (batch : Nat → List Nat) : Inv n batch init where
  base := base_init n
  inside := by intro p u h; simp [init, Locks.init] at h
  own := by intro p u h; simp [init, Locks.init] at h
  refs := by intro p; simp [init, Locks.init]
  taken := by intro w; simp [init]
  freed := by intro w; simp [init]
  phase := by intro w h; simp [init] at h
  want := by intro w p b h; simp [init, Locks.init] at h

theorem inv_run {n batch} (sched : List (Nat × Bool)) : ∀ s, Inv n batch s → Inv n batch (run n batch s sched) := by
  induction sched with
  | nil => intro s h; exact h
  | cons e sched ih =>
    intro s h
    obtain ⟨w, b⟩ := e
    rw [run]
    apply ih
    split
    · rename_i hw; exact inv_step h w b hw
    · exact h

theorem attempt_free (l : Locks) (w p : Nat) (h : (l.lock p).locker = none) : (attempt l w p).2 = true := by
  unfold attempt; rw [h]

/-- The next step of `w` takes or releases a lock. -/
def Moves (batch : Nat → List Nat) (s : St) (w : Nat) : Prop :=
  ((step batch s w false).taken = inc s.taken w ∧ (step batch s w false).freed = s.freed) ∨
  ((step batch s w false).taken = s.taken ∧ (step batch s w false).freed = inc s.freed w)

theorem outst_le {n batch s} (h : Inv n batch s) (w p : Nat) (ho : 1 ≤ outst batch s w p) :
    p ∈ (batch w).take (s.taken w) ∧ s.freed w < (batch w).length := by
  unfold outst at ho
  constructor
  · rw [← List.count_pos_iff]; omega
  · have hf := h.freed w
    rcases Nat.lt_or_ge (s.freed w) (batch w).length with h1 | h1
    · exact h1
    · have : s.freed w = (batch w).length := by omega
      rcases Nat.eq_zero_or_pos (batch w).length with h2 | h2
      · have h3 : batch w = [] := List.length_eq_zero_iff.1 h2
        rw [h3] at ho; simp at ho
      · have h3 := h.phase w (by omega)
        rw [h3, this] at ho
        omega

theorem progress {n batch s} (h : Inv n batch s) (hord : Ordered n batch) (M : Nat)
    (hM : ∀ w, w < n → ∀ p ∈ batch w, p ≤ M) :
    ∀ k w, w < n → s.freed w < (batch w).length →
      (∀ p, (batch w)[s.taken w]? = some p → M - p < k) → ∃ v, v < n ∧ s.freed v < (batch v).length ∧ Moves batch s v := by
  intro k
  induction k with
  | zero =>
    intro w hw hf hk
    cases hp : (batch w)[s.taken w]? with
    | some p => have := hk p hp; omega
    | none =>
      refine ⟨w, hw, hf, .inr ?_⟩
      have hwt : s.locks.wait w = none := by
        cases hx : s.locks.wait w with
        | none => rfl
        | some x => have := h.want w x.1 x.2 hx; rw [hp] at this; cases this
      unfold step
      rw [hwt]
      dsimp only
      rw [hp]
      dsimp only
      rw [List.getElem?_eq_getElem hf]
      exact ⟨rfl, rfl⟩
  | succ k ih =>
    intro w hw hf hk
    cases hp : (batch w)[s.taken w]? with
    | none => exact ih w hw hf (by intro p h'; rw [hp] at h'; cases h')
    | some p =>
      cases hl : (s.locks.lock p).locker with
      | none =>
        refine ⟨w, hw, hf, .inl ?_⟩
        unfold step
        cases hx : s.locks.wait w with
        | none =>
          dsimp only
          rw [hp]
          dsimp only
          unfold lockage_lock
          have hne : ¬ (s.locks.lock p).locker = some w := by rw [hl]; simp
          rw [if_neg hne, if_pos (attempt_free _ _ _ hl)]
          exact ⟨rfl, rfl⟩
        | some x =>
          obtain ⟨q, c⟩ := x
          have hq := h.want w q c hx
          rw [hp] at hq
          cases hq
          cases c with
          | false => exact absurd hl (h.base.free w p hx)
          | true =>
            have ht : (true || false) = true := rfl
            dsimp only
            rw [if_pos ht]
            unfold wake
            rw [hx]
            dsimp only
            rw [if_pos (attempt_free _ _ _ (by simp [setLock, hl]))]
            exact ⟨rfl, rfl⟩
      | some u =>
        have hown := h.own p u hl
        have hr := h.refs p
        obtain ⟨h1, h2⟩ := outst_le h u p (by omega)
        have hun := h.inside p u hl
        by_cases hq : (batch u)[s.taken u]? = some p
        · refine ⟨u, hun, h2, .inl ?_⟩
          have hwt : s.locks.wait u = none := by
            cases hx : s.locks.wait u with
            | none => rfl
            | some x =>
              have := h.want u x.1 x.2 hx
              rw [hq] at this
              have e : p = x.1 := Option.some.inj this
              exact absurd hl (h.base.notown u p x.2 (by rw [hx, e]))
          unfold step
          rw [hwt]
          dsimp only
          rw [hq]
          dsimp only
          unfold lockage_lock
          rw [if_pos hl]
          exact ⟨rfl, rfl⟩
        · apply ih u hun h2
          intro q hq'
          have hlt := (List.getElem?_eq_some_iff.1 hq').1
          have hsort := hord u hun
          have hge : p ≤ q := by
            obtain ⟨i, hi, e⟩ := List.mem_iff_getElem.1 h1
            rw [List.getElem_take] at e
            rw [List.length_take] at hi
            have := List.pairwise_iff_getElem.1 hsort i (s.taken u) (by omega) hlt (by omega)
            rw [e] at this
            rw [(List.getElem?_eq_some_iff.1 hq').2] at this
            exact this
          have hne : q ≠ p := fun e => hq (by rw [hq', e])
          have hp' := hk p hp
          have hqM := hM u hun q (List.mem_of_getElem? hq')
          omega

/-- Work left over all writers. -/
def left (batch : Nat → List Nat) (s : St) (ws : List Nat) : Nat :=
  (ws.map (fun w => ((batch w).length - s.taken w) + ((batch w).length - s.freed w))).sum

theorem sum_lt (ws : List Nat) (f g : Nat → Nat) (h : ∀ w, f w ≤ g w) (w : Nat) (hw : w ∈ ws) (hlt : f w < g w) :
    (ws.map f).sum < (ws.map g).sum := by
  have hle : ∀ l : List Nat, (l.map f).sum ≤ (l.map g).sum := by
    intro l
    induction l with
    | nil => simp
    | cons a l ih => simp only [List.map_cons, List.sum_cons]; have := h a; omega
  induction ws with
  | nil => simp at hw
  | cons a ws ih =>
    simp only [List.map_cons, List.sum_cons]
    rcases List.mem_cons.1 hw with rfl | hw
    · have := hle ws; omega
    · have := ih hw; have := h a; omega

theorem bound (n : Nat) (batch : Nat → List Nat) : ∃ M, ∀ w, w < n → ∀ p ∈ batch w, p ≤ M := by
  induction n with
  | zero => exact ⟨0, by omega⟩
  | succ n ih =>
    obtain ⟨M, hM⟩ := ih
    have hl : ∀ l : List Nat, ∀ p ∈ l, p ≤ l.sum := by
      intro l
      induction l with
      | nil => simp
      | cons a l ih =>
        intro p hp
        simp only [List.sum_cons]
        rcases List.mem_cons.1 hp with rfl | hp
        · omega
        · have := ih p hp; omega
    refine ⟨M + (batch n).sum, ?_⟩
    intro w hw p hp
    by_cases e : w = n
    · subst e; have := hl _ p hp; omega
    · have := hM w (by omega) p hp; omega

theorem finish {n batch} (hord : Ordered n batch) : ∀ k s, Inv n batch s → left batch s (List.range n) ≤ k →
    ∃ more, (∀ e ∈ more, e.2 = false) ∧ AllDone n batch (run n batch s more) := by
  obtain ⟨M, hM⟩ := bound n batch
  intro k
  induction k with
  | zero =>
    intro s h hk
    refine ⟨[], by simp, ?_⟩
    intro w hw
    have hf := h.freed w
    rcases Nat.lt_or_ge (s.freed w) (batch w).length with h1 | h1
    · have := sum_lt (List.range n) (fun _ => 0)
        (fun w => ((batch w).length - s.taken w) + ((batch w).length - s.freed w)) (by intro w; omega) w
        (List.mem_range.2 hw) (by omega)
      unfold left at hk
      omega
    · rw [run]; omega
  | succ k ih =>
    intro s h hk
    by_cases hd : AllDone n batch s
    · exact ⟨[], by simp, hd⟩
    · have : ∃ w, w < n ∧ s.freed w < (batch w).length := by
        apply Classical.byContradiction
        intro hno
        apply hd
        intro w hw
        have hf := h.freed w
        rcases Nat.lt_or_ge (s.freed w) (batch w).length with h1 | h1
        · exact absurd ⟨w, hw, h1⟩ hno
        · omega
      obtain ⟨w, hw, hwf⟩ := this
      obtain ⟨v, hv, hvf, hmv⟩ := progress h hord M hM (M + 1) w hw hwf (by intro p _; omega)
      have hstep := inv_step h v false hv
      have hlt : left batch (step batch s v false) (List.range n) < left batch s (List.range n) := by
        unfold left
        have h1 := hstep.taken v
        have h2 := hstep.freed v
        refine sum_lt _ _ _ ?_ v (List.mem_range.2 hv) ?_
        · intro u
          rcases hmv with ⟨e1, e2⟩ | ⟨e1, e2⟩ <;> rw [e1, e2] <;> unfold inc <;> split <;> omega
        · rcases hmv with ⟨e1, e2⟩ | ⟨e1, e2⟩
          · rw [e1] at h1
            rw [e1, e2]
            simp only [inc, if_true] at h1 ⊢
            omega
          · rw [e2] at h2
            rw [e1, e2]
            simp only [inc, if_true] at h2 ⊢
            omega
      obtain ⟨more, g1, g2⟩ := ih _ hstep (by omega)
      refine ⟨(v, false) :: more, ?_, ?_⟩
      · intro e he
        rcases List.mem_cons.1 he with rfl | he
        · rfl
        · exact g1 e he
      · rw [run, if_pos hv]; exact g2

end Verif.C32
