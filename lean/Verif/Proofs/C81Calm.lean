import Verif.Proofs.C81

namespace Verif.C81
open C59 (Hold Ok Inv upd)

/-- The pages a script asks for. -/
def need : List Deed → Nat
  | [] => 0
  | .page _ _ :: k => need k + 1
  | _ :: k => need k

theorem need_append (a b : List Deed) : need (a ++ b) = need a + need b := by
  induction a with
  | nil => simp [need]
  | cons d a ih => cases d <;> simp [need, ih] <;> omega

theorem need_locks (as : List Act) : need (Deed.locks as) = 0 := by
  induction as with
  | nil => rfl
  | cons a as ih => exact ih

/-- Sum over the first threads. -/
def over (n : Nat) (f : Nat → Nat) : Nat := ((List.range n).map f).sum

theorem over_succ (n : Nat) (f : Nat → Nat) : over (n + 1) f = over n f + f n := by
  simp [over, List.range_succ]

theorem over_congr (n : Nat) (f g : Nat → Nat) (h : ∀ t, t < n → f t = g t) : over n f = over n g := by
  induction n with
  | zero => rfl
  | succ n ih => rw [over_succ, over_succ, ih (fun t ht => h t (by omega)), h n (by omega)]

theorem over_set (n : Nat) (m : List Deed → Nat) (r : Nat → List Deed) (t : Nat) (k : List Deed) (ht : t < n) :
    over n (fun u => m (Room.set r t k u)) + m (r t) = over n (fun u => m (r u)) + m k := by
  induction n with
  | zero => omega
  | succ n ih =>
    rw [over_succ, over_succ]
    by_cases e : t = n
    · subst e
      have : over t (fun u => m (Room.set r t k u)) = over t (fun u => m (r u)) :=
        over_congr _ _ _ (fun u hu => by simp only [Room.set]; rw [if_neg (by omega)])
      rw [this]
      simp only [Room.set, if_true]
      omega
    · have h1 := ih (by omega)
      have h2 : Room.set r t k n = r n := by simp only [Room.set]; rw [if_neg (fun h => e h.symm)]
      rw [h2]
      omega

theorem over_le_set (n : Nat) (m : List Deed → Nat) (r : Nat → List Deed) (t : Nat) (k : List Deed) (ht : t < n)
    (h : m k ≤ m (r t)) : over n (fun u => m (Room.set r t k u)) ≤ over n (fun u => m (r u)) := by
  have := over_set n m r t k ht
  omega

theorem over_pos (n : Nat) (f : Nat → Nat) (t : Nat) (ht : t < n) : f t ≤ over n f := by
  induction n with
  | zero => omega
  | succ n ih =>
    rw [over_succ]
    by_cases e : t = n
    · subst e; omega
    · have := ih (by omega); omega

/-- Nobody waits for memory, and nobody will. -/
def Calm (n : Nat) (s : Room) : Prop :=
  (∀ t, s.asleep t = none) ∧
  (s.pool.limit = false ∨ s.pool.limit_error = true ∨
    (s.pool.count + over n (fun t => need (s.rest t))) * s.pool.page_size < s.pool.limit_wm + s.pool.page_size)

/-- There is memory for everything. -/
def Roomy (n : Nat) (s : Room) : Prop :=
  s.pool.limit = false ∨
    (s.pool.count + over n (fun t => need (s.rest t))) * s.pool.page_size < s.pool.limit_wm + s.pool.page_size

theorem push_le (m : Pool) (k : Nat) : (m.push k).1.count ≤ m.count ∧ (m.push k).1.page_size = m.page_size ∧
    (m.push k).1.limit = m.limit ∧ (m.push k).1.limit_error = m.limit_error ∧ (m.push k).1.limit_wm = m.limit_wm ∧
    (m.push k).1.cache = m.cache := by
  unfold Pool.push
  split <;> simp

theorem give_back_le (s : Room) (k : Nat) : (s.give_back k).pool.count ≤ s.pool.count ∧
    (s.give_back k).pool.page_size = s.pool.page_size ∧ (s.give_back k).pool.limit = s.pool.limit ∧
    (s.give_back k).pool.limit_error = s.pool.limit_error ∧ (s.give_back k).pool.limit_wm = s.pool.limit_wm ∧
    (s.give_back k).pool.cache = s.pool.cache := by
  unfold Room.give_back
  split
  · simp
  · exact push_le s.pool k

/-- What a step does to settings, pages in count and pages to come. -/
structure Moved (n : Nat) (s s' : Room) : Prop where
  page_size : s'.pool.page_size = s.pool.page_size
  limit : s'.pool.limit = s.pool.limit
  limit_error : s'.pool.limit_error = s.pool.limit_error
  limit_wm : s'.pool.limit_wm = s.pool.limit_wm
  cache : s'.pool.cache = s.pool.cache
  less : s'.pool.count + over n (fun t => need (s'.rest t)) ≤ s.pool.count + over n (fun t => need (s.rest t))

theorem need_dropWhile (k : List Deed) : need (k.dropWhile (fun d => !d.isFin)) ≤ need k := by
  induction k with
  | nil => simp [need]
  | cons d k ih =>
    rw [List.dropWhile_cons]
    split
    · cases d <;> simp only [need] <;> omega
    · exact Nat.le_refl _

theorem step_moved {first : Bool} {n : Nat} {s s' : Room} {t : Nat} {b : Bool} (ht : t < n)
    (h : s.step first t b = .ok s') : Moved n s s' := by
  unfold Room.step at h
  have hrefl : Moved n s s := ⟨rfl, rfl, rfl, rfl, rfl, Nat.le_refl _⟩
  have hsame : ∀ c k (x : Room), x.pool = s.pool → s.rest t = c :: k → need k ≤ need (c :: k) → x.rest = Room.set s.rest t k →
      Moved n s x := by
    intro c k x h1 h2 h3 h4
    refine ⟨by rw [h1], by rw [h1], by rw [h1], by rw [h1], by rw [h1], ?_⟩
    rw [h1, h4]
    have := over_le_set n need s.rest t k ht (by rw [h2]; exact h3)
    omega
  have hgot : ∀ c k (x : Room), x.pool.page_size = s.pool.page_size ∧ x.pool.limit = s.pool.limit ∧
      x.pool.limit_error = s.pool.limit_error ∧ x.pool.limit_wm = s.pool.limit_wm ∧ x.pool.cache = s.pool.cache →
      x.pool.count + need k ≤ s.pool.count + need (c :: k) → s.rest t = c :: k → x.rest = Room.set s.rest t k → Moved n s x := by
    intro c k x h1 h2 h3 h4
    refine ⟨h1.1, h1.2.1, h1.2.2.1, h1.2.2.2.1, h1.2.2.2.2, ?_⟩
    rw [h4]
    have := over_set n need s.rest t k ht
    rw [h3] at this
    omega
  cases hr : s.rest t with
  | nil => rw [hr] at h; injection h with h; subst h; exact hrefl
  | cons d k =>
    rw [hr] at h
    cases d with
    | lock a =>
      dsimp only at h
      split at h
      · injection h with h; subst h
        refine ⟨rfl, rfl, rfl, rfl, rfl, ?_⟩
        dsimp only
        split
        · have := over_le_set n need s.rest t k ht (by rw [hr]; exact Nat.le_refl _)
          omega
        · exact Nat.le_refl _
      all_goals cases h
    | page p undo =>
      dsimp only at h
      split at h
      · split at h
        · rename_i m hp
          injection h with h; subst h
          refine hgot _ k _ ?_ ?_ hr rfl
          · unfold Pool.pop at hp
            split at hp
            · injection hp with hp; subst hp; simp [Room.got]
            · split at hp
              · split at hp <;> cases hp
              · injection hp with hp; subst hp; simp [Room.got]
          · unfold Pool.pop at hp
            simp only [need, Room.got]
            split at hp
            · injection hp with hp; subst hp; dsimp only; omega
            · split at hp
              · split at hp <;> cases hp
              · injection hp with hp; subst hp; dsimp only; omega
        · injection h with h; subst h; exact ⟨rfl, rfl, rfl, rfl, rfl, Nat.le_refl _⟩
        · injection h with h; subst h
          refine ⟨rfl, rfl, rfl, rfl, rfl, ?_⟩
          dsimp only
          have := over_le_set n need s.rest t (Deed.locks undo ++ k.dropWhile (fun d => !d.isFin)) ht (by
            rw [hr, need_append, need_locks]
            have := need_dropWhile k
            simp only [need]
            omega)
          omega
      · split at h
        · split at h
          · injection h with h; subst h
            exact hgot _ k _ (by simp [Room.got]) (by simp only [need, Room.got]; omega) hr rfl
          · injection h with h; subst h; exact ⟨rfl, rfl, rfl, rfl, rfl, Nat.le_refl _⟩
        · injection h with h; subst h; exact hrefl
    | rotate p => injection h with h; subst h; exact hsame _ k _ rfl hr (Nat.le_refl _) rfl
    | fin => injection h with h; subst h; exact hsame _ k _ rfl hr (Nat.le_refl _) rfl
    | reset =>
      injection h with h; subst h
      exact hgot _ k _ (by simp [Pool.reset]) (by simp only [need, Pool.reset]; omega) hr rfl
    | free p =>
      injection h with h; subst h
      obtain ⟨h1, h2⟩ := give_back_le s (s.old p)
      exact hgot _ k _ h2 (by simp only [need]; omega) hr rfl
    | drop p =>
      injection h with h; subst h
      obtain ⟨h1, h2, h3, h4, h5, h6⟩ := give_back_le s (s.mem p)
      obtain ⟨g1, g2, g3, g4, g5, g6⟩ := give_back_le (s.give_back (s.mem p)) (s.old p)
      exact hgot _ k _ ⟨by rw [g2, h2], by rw [g3, h3], by rw [g4, h4], by rw [g5, h5], by rw [g6, h6]⟩
        (by simp only [need]; omega) hr rfl

theorem roomy_pop {n : Nat} {s : Room} (h : Roomy n s) {t : Nat} (ht : t < n) {p : Nat} {undo : List Act} {k : List Deed}
    (hr : s.rest t = .page p undo :: k) : ∃ m, s.pool.pop = .got m := by
  unfold Pool.pop
  by_cases hf : 0 < s.pool.free
  · rw [if_pos hf]; exact ⟨_, rfl⟩
  · rw [if_neg hf]
    have : s.pool.full = false := by
      unfold Pool.full
      rcases h with h | h
      · rw [h]; rfl
      · have h1 := over_pos n (fun t => need (s.rest t)) t ht
        simp only [hr, need] at h1
        have h2 : (s.pool.count + 1) * s.pool.page_size ≤ (s.pool.count + over n (fun t => need (s.rest t))) * s.pool.page_size :=
          Nat.mul_le_mul_right _ (by omega)
        rw [Nat.add_mul, Nat.one_mul] at h2
        rw [Bool.and_eq_false_iff]
        right
        rw [decide_eq_false_iff_not]
        omega
    rw [this]
    exact ⟨_, rfl⟩

theorem calm_pop {n : Nat} {s : Room} (h : Calm n s) {t : Nat} (ht : t < n) {p : Nat} {undo : List Act} {k : List Deed}
    (hr : s.rest t = .page p undo :: k) : s.pool.pop ≠ .wait := by
  rcases h.2 with h1 | h1 | h1
  · obtain ⟨m, e⟩ := roomy_pop (.inl h1) ht hr; rw [e]; simp
  · unfold Pool.pop
    split
    · simp
    · split
      · simp
      · simp
  · obtain ⟨m, e⟩ := roomy_pop (.inr h1) ht hr; rw [e]; simp

theorem calm_step {first : Bool} {n : Nat} {s s' : Room} {t : Nat} {b : Bool} (hc : Calm n s) (ht : t < n)
    (h : s.step first t b = .ok s') : Calm n s' := by
  have hm := step_moved ht h
  refine ⟨?_, ?_⟩
  · unfold Room.step at h
    cases hr : s.rest t with
    | nil => rw [hr] at h; injection h with h; subst h; exact hc.1
    | cons d k =>
      rw [hr] at h
      cases d with
      | lock a =>
        dsimp only at h
        split at h
        · injection h with h; subst h; exact hc.1
        all_goals cases h
      | page p undo =>
        dsimp only at h
        rw [hc.1 t] at h
        dsimp only at h
        split at h
        · injection h with h; subst h
          intro u
          dsimp only [Room.got, Room.set]
          split
          · rfl
          · exact hc.1 u
        · rename_i hp; exact absurd hp (calm_pop hc ht hr)
        · injection h with h; subst h; exact hc.1
      | rotate p => injection h with h; subst h; exact hc.1
      | fin => injection h with h; subst h; exact hc.1
      | reset => injection h with h; subst h; exact hc.1
      | free p =>
        injection h with h; subst h
        intro u
        exact ((give_back_same s (s.old p)).2.2.2.2.2.2 u).2 (hc.1 u)
      | drop p =>
        injection h with h; subst h
        intro u
        exact ((give_back_same (s.give_back (s.mem p)) (s.old p)).2.2.2.2.2.2 u).2
          (((give_back_same s (s.mem p)).2.2.2.2.2.2 u).2 (hc.1 u))
  · rw [hm.limit, hm.limit_error, hm.page_size, hm.limit_wm]
    rcases hc.2 with h1 | h1 | h1
    · exact .inl h1
    · exact .inr (.inl h1)
    · refine .inr (.inr (Nat.lt_of_le_of_lt (Nat.mul_le_mul_right _ hm.less) h1))

/-- Work left over all threads. -/
def left (n : Nat) (s : Room) : Nat := over n (fun t => (s.rest t).length)

theorem left_set {n : Nat} {s s' : Room} {t : Nat} (ht : t < n) {k : List Deed} (hr : s'.rest = Room.set s.rest t k)
    (hlt : k.length < (s.rest t).length) : left n s' < left n s := by
  unfold left
  rw [hr]
  have := over_set n List.length s.rest t k ht
  omega

/-- Unless all is done somebody gets on. -/
theorem calm_progress {first n g s} (h : RInv first n g s) (hc : Calm n s) (hne : ∃ t, t < n ∧ s.rest t ≠ []) :
    ∃ t s', t < n ∧ s.step first t false = .ok s' ∧ left n s' < left n s := by
  by_cases hmem : ∃ t d k, t < n ∧ s.rest t = d :: k ∧ ∀ a, d ≠ .lock a
  · obtain ⟨t, d, k, ht, hr, hd⟩ := hmem
    have hg := h.good t ht
    rw [hr] at hg
    have hk : k.length < (s.rest t).length := by rw [hr]; simp
    cases d with
    | lock a => exact absurd rfl (hd a)
    | page p undo =>
      have hp := calm_pop hc ht hr
      cases hpp : s.pool.pop with
      | wait => exact absurd hpp hp
      | got m =>
        refine ⟨t, s.got t p m k, ht, ?_, left_set ht rfl hk⟩
        unfold Room.step
        rw [hr]
        dsimp only
        rw [hc.1 t]
        dsimp only
        rw [hpp]
      | throw =>
        refine ⟨t, { s with
          rest := Room.set s.rest t (Deed.locks undo ++ k.dropWhile (fun d => !d.isFin)),
          failed := Room.set s.failed t (s.failed t + 1) }, ht, ?_, left_set ht rfl ?_⟩
        · unfold Room.step
          rw [hr]
          dsimp only
          rw [hc.1 t]
          dsimp only
          rw [hpp]
        · cases hg with
          | page _ _ hl =>
            rw [hr]
            simp only [List.length_append, List.length_cons, Deed.locks, List.length_map]
            omega
    | rotate p => exact ⟨t, _, ht, by unfold Room.step; rw [hr], left_set ht rfl hk⟩
    | fin => exact ⟨t, _, ht, by unfold Room.step; rw [hr], left_set ht rfl hk⟩
    | reset => exact ⟨t, _, ht, by unfold Room.step; rw [hr], left_set ht rfl hk⟩
    | free p => exact ⟨t, _, ht, by unfold Room.step; rw [hr], left_set ht rfl hk⟩
    | drop p => exact ⟨t, _, ht, by unfold Room.step; rw [hr], left_set ht rfl hk⟩
  · have hlock : ∀ t, t < n → s.rest t = [] ∨ ∃ a k, s.rest t = .lock a :: k := by
      intro t ht
      cases hr : s.rest t with
      | nil => exact .inl rfl
      | cons d k =>
        cases d with
        | lock a => exact .inr ⟨a, k, rfl⟩
        | _ => exact absurd ⟨t, _, k, ht, hr, nofun⟩ hmem
    obtain ⟨t, ht, hn⟩ := hne
    have hpn : (proj s).rest t ≠ [] := by
      rcases hlock t ht with h1 | ⟨a, k, h1⟩
      · exact absurd h1 hn
      · simp [proj, h1, acts]
    obtain ⟨v, hv, S', a, k, e1, e2, e3⟩ := C59.progress h.inv t ht hpn
    rcases hlock v hv with h1 | ⟨a', k', h1⟩
    · simp [proj, h1, acts] at e1
    · have hp : (proj s).rest v = a' :: acts k' := by simp only [proj, h1, acts]
      rw [hp] at e1
      obtain ⟨c, hcm, h2⟩ := rinv_lock h false hv h1
      have h3 := mini_step (S := proj s) rfl rfl hp hcm
      rw [e2] at h3
      injection h3 with h3
      have hd : (c.rest v).isEmpty = true := by
        cases hx : (c.rest v).isEmpty with
        | true => rfl
        | false =>
          exfalso
          rw [hx] at h3
          rw [h3] at e3
          have := congrFun e3 v
          simp only [Bool.false_eq_true, if_false, Threads.setRest, if_true] at this
          rw [hp, e1] at this
          have := congrArg List.length this
          simp at this
      refine ⟨v, { s with control := c.control, locks := c.locks, rest := Room.set s.rest v k' }, hv, ?_,
        left_set hv rfl (by rw [h1]; simp)⟩
      unfold mini at hcm
      unfold Room.step
      rw [h1]
      dsimp only
      rw [hcm]
      dsimp only
      rw [hd, if_pos rfl]

theorem calm_finish {first n} : ∀ d g s, RInv first n g s → Calm n s → left n s ≤ d → Finishes first n s := by
  intro d
  induction d with
  | zero =>
    intro g s h hc hd
    refine ⟨[], by simp, s, rfl, fun t ht => ?_⟩
    have := over_pos n (fun t => (s.rest t).length) t ht
    unfold left at hd
    exact List.length_eq_zero_iff.1 (by omega)
  | succ d ih =>
    intro g s h hc hd
    by_cases hdone : ∀ t, t < n → s.rest t = []
    · exact ⟨[], by simp, s, rfl, hdone⟩
    · have hne : ∃ t, t < n ∧ s.rest t ≠ [] := by
        apply Classical.byContradiction
        intro hno
        apply hdone
        intro t ht
        exact Classical.byContradiction fun hn => hno ⟨t, ht, hn⟩
      obtain ⟨t, s1, ht, e1, hlt⟩ := calm_progress h hc hne
      obtain ⟨s2, g2, e2, h2⟩ := rinv_step h t false ht
      rw [e1] at e2
      injection e2 with e2
      subst e2
      obtain ⟨more, f1, s', f2, f3⟩ := ih g2 s1 h2 (calm_step hc ht e1) (by omega)
      refine ⟨(t, false) :: more, ?_, s', ?_, f3⟩
      · intro e he
        rcases List.mem_cons.1 he with rfl | he
        · rfl
        · exact f1 e he
      · rw [run, if_pos ht, e1]; exact f2

theorem calm_run {first n} (sched : List (Nat × Bool)) : ∀ g s, RInv first n g s → Calm n s →
    ∃ s' g', run first n s sched = .ok s' ∧ RInv first n g' s' ∧ Calm n s' := by
  induction sched with
  | nil => intro g s h hc; exact ⟨s, g, rfl, h, hc⟩
  | cons e sched ih =>
    intro g s h hc
    obtain ⟨t, b⟩ := e
    rw [run]
    split
    · rename_i ht
      obtain ⟨s1, g1, h1, h2⟩ := rinv_step h t b ht
      rw [h1]
      exact ih g1 s1 h2 (calm_step hc ht h1)
    · exact ih g s h hc

end Verif.C81
