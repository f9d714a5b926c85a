import Verif.Proofs.C81Jobs

namespace Verif.C81

theorem over_upd (n : Nat) (f : Nat → Nat) (p x : Nat) :
    over n (Room.set f p x) + (if p < n then f p else 0) = over n f + (if p < n then x else 0) := by
  induction n with
  | zero => simp [over]
  | succ n ih =>
    rw [over_succ, over_succ]
    by_cases e : p = n
    · subst e
      simp only [Nat.lt_irrefl, if_false, Nat.add_zero, Nat.lt_succ_self, if_true] at ih ⊢
      rw [ih]
      simp only [Room.set, if_true]
      omega
    · have h2 : Room.set f p x n = f n := by simp only [Room.set]; rw [if_neg (fun h => e h.symm)]
      rw [h2]
      by_cases hl : p < n
      · rw [if_pos hl, if_pos hl] at ih
        rw [if_pos (by omega), if_pos (by omega)]
        omega
      · rw [if_neg hl, if_neg hl] at ih
        rw [if_neg (by omega), if_neg (by omega)]
        omega

theorem over_mono (f : Nat → Nat) {m n : Nat} (h : m ≤ n) : over m f ≤ over n f := by
  induction n with
  | zero => have : m = 0 := by omega
            rw [this]; exact Nat.le_refl _
  | succ n ih =>
    by_cases e : m = n + 1
    · rw [e]; exact Nat.le_refl _
    · rw [over_succ]; have := ih (by omega); omega

/-- Pages are free or belong to a partition. -/
def Accounted (m : Pool) (f : Nat → Nat) : Prop := ∀ n, m.free + over n f ≤ m.count

theorem accounted_one {m : Pool} {f : Nat → Nat} (h : Accounted m f) (p : Nat) : m.free + f p ≤ m.count := by
  have := h (p + 1)
  rw [over_succ] at this
  omega

theorem accounted_push {m : Pool} {f : Nat → Nat} (h : Accounted m f) {p k : Nat} (hk : k ≤ f p) :
    Accounted (m.push k).1 (Room.set f p (f p - k)) := by
  intro n
  have h1 := over_upd n f p (f p - k)
  have h2 := h n
  unfold Pool.push
  split
  · dsimp only
    by_cases hl : p < n
    · rw [if_pos hl, if_pos hl] at h1; omega
    · rw [if_neg hl, if_neg hl] at h1
      have h3 := h (p + 1)
      rw [over_succ] at h3
      have := over_mono f (Nat.le_of_not_lt hl)
      omega
  · dsimp only
    by_cases hl : p < n
    · rw [if_pos hl, if_pos hl] at h1; omega
    · rw [if_neg hl, if_neg hl] at h1
      have h3 := h (p + 1)
      rw [over_succ] at h3
      have := over_mono f (Nat.le_of_not_lt hl)
      omega

/-- The limit was not passed by more than a page. -/
def Bounded (m : Pool) : Prop := m.limit = true → m.count * m.page_size < m.limit_wm + m.page_size

/-- Who sleeps has reason to. -/
def Needy (m : Pool) (a : Nat → Option Bool) : Prop :=
  ∀ t w, a t = some w → m.limit = true ∧ m.limit_wm ≤ m.count * m.page_size ∧ (0 < m.free → w = true)

/-- All of it. -/
structure Fair (m : Pool) (f : Nat → Nat) (a : Nat → Option Bool) : Prop where
  acc : Accounted m f
  bounded : Bounded m
  needy : Needy m a
  cache : m.limit_wm ≤ m.cache

theorem fair_push {m : Pool} {f : Nat → Nat} {a : Nat → Option Bool} (h : Fair m f a) {p k : Nat} (hk : k ≤ f p) (h0 : k ≠ 0) :
    Fair (m.push k).1 (Room.set f p (f p - k)) (if (m.push k).2 then fun u => (a u).map fun _ => true else a) := by
  have hl := push_le m k
  refine ⟨accounted_push h.acc hk, ?_, ?_, by rw [hl.2.2.2.2.1, hl.2.2.2.2.2]; exact h.cache⟩
  · intro hlim
    rw [hl.2.2.1] at hlim
    rw [hl.2.1, hl.2.2.2.2.1]
    exact Nat.lt_of_le_of_lt (Nat.mul_le_mul_right _ hl.1) (h.bounded hlim)
  · intro t w hw
    have hex : ∃ w', a t = some w' := by
      split at hw
      · cases hx : a t with
        | none => dsimp only at hw; rw [hx] at hw; cases hw
        | some w' => exact ⟨w', rfl⟩
      · exact ⟨w, hw⟩
    obtain ⟨w', hw'⟩ := hex
    obtain ⟨h1, h2, h3⟩ := h.needy t w' hw'
    have hcached : m.free * m.page_size < m.cache := by
      have hb := h.bounded h1
      have ha := accounted_one h.acc p
      have h4 : (m.free + 1) * m.page_size ≤ m.count * m.page_size := Nat.mul_le_mul_right _ (by omega)
      rw [Nat.add_mul, Nat.one_mul] at h4
      have := h.cache
      omega
    unfold Pool.push at hw ⊢
    rw [if_pos hcached] at hw ⊢
    dsimp only at hw ⊢
    refine ⟨h1, h2, fun _ => ?_⟩
    rw [if_pos rfl] at hw
    rw [hw'] at hw
    simp at hw
    exact hw

theorem set_self {α : Type} (f : Nat → α) (p : Nat) : Room.set f p (f p) = f := by
  funext q
  simp only [Room.set]
  split
  · rename_i e; rw [e]
  · rfl

theorem set_set {α : Type} (f : Nat → α) (p : Nat) (x y : α) : Room.set (Room.set f p x) p y = Room.set f p y := by
  funext q
  simp only [Room.set]
  split <;> rfl

theorem set_at {α : Type} (f : Nat → α) (p : Nat) (x : α) : Room.set f p x p = x := by simp [Room.set]

theorem fair_give_back {s : Room} {f : Nat → Nat} (h : Fair s.pool f s.asleep) {p k : Nat} (hk : k ≤ f p) :
    Fair (s.give_back k).pool (Room.set f p (f p - k)) (s.give_back k).asleep := by
  unfold Room.give_back
  by_cases h0 : k = 0
  · rw [if_pos h0, h0, Nat.sub_zero, set_self]; exact h
  · rw [if_neg h0]
    exact fair_push h hk h0

def usage (s : Room) : Nat → Nat := fun p => s.mem p + s.old p

/-- A state in which nobody waits without need, and nobody trims the cache. -/
structure Just (s : Room) : Prop where
  fair : Fair s.pool (usage s) s.asleep
  trim : ∀ t, Deed.reset ∉ s.rest t

theorem needy_set {m : Pool} {a : Nat → Option Bool} (h : Needy m a) (t : Nat) : Needy m (Room.set a t none) := by
  intro u w hu
  simp only [Room.set] at hu
  split at hu
  · cases hu
  · exact h u w hu

theorem usage_mem (s : Room) (p : Nat) (m : Pool) (t : Nat) (k : List Deed) :
    usage (s.got t p m k) = Room.set (usage s) p (usage s p + 1) := by
  funext q
  simp only [usage, Room.got, Room.set]
  split
  · rename_i e; subst e; omega
  · rfl

theorem accounted_more {m m' : Pool} {f : Nat → Nat} (h : Accounted m f) {p : Nat}
    (hm : m.count + m'.free + 1 ≤ m'.count + m.free) : Accounted m' (Room.set f p (f p + 1)) := by
  intro n
  have h1 := over_upd n f p (f p + 1)
  have h2 := h n
  by_cases hl : p < n
  · rw [if_pos hl, if_pos hl] at h1; omega
  · rw [if_neg hl, if_neg hl] at h1; omega

theorem just_step {first : Bool} {s s' : Room} {t : Nat} {b : Bool} (h : Just s)
    (hs : s.step first t b = .ok s') : Just s' := by
  have hrest : ∀ (x : Room) k, x.rest = Room.set s.rest t k → (Deed.reset ∉ k) → ∀ u, Deed.reset ∉ x.rest u := by
    intro x k h1 h2 u
    rw [h1]
    simp only [Room.set]
    split
    · exact h2
    · exact h.trim u
  unfold Room.step at hs
  cases hr : s.rest t with
  | nil => rw [hr] at hs; injection hs with hs; subst hs; exact h
  | cons d k =>
    have ht := h.trim t
    rw [hr] at ht hs
    have hk : Deed.reset ∉ k := fun e => ht (by simp [e])
    cases d with
    | lock a =>
      dsimp only at hs
      split at hs
      · injection hs with hs; subst hs
        refine ⟨h.fair, ?_⟩
        intro u
        dsimp only
        split
        · exact hrest { s with rest := Room.set s.rest t k } k rfl hk u
        · exact h.trim u
      all_goals cases hs
    | page p undo =>
      dsimp only at hs
      split at hs
      · rename_i ha
        split at hs
        · rename_i m hp
          injection hs with hs; subst hs
          refine ⟨?_, hrest _ k rfl hk⟩
          rw [usage_mem]
          unfold Pool.pop at hp
          split at hp
          · rename_i hf
            injection hp with hp; subst hp
            refine ⟨accounted_more h.fair.acc ?_, h.fair.bounded, needy_set ?_ t, h.fair.cache⟩
            · dsimp only [Room.got]; omega
            · intro u w hu
              obtain ⟨h1, h2, h3⟩ := h.fair.needy u w hu
              refine ⟨h1, h2, fun hf' => h3 hf⟩
          · rename_i hf
            split at hp
            · split at hp <;> cases hp
            · rename_i hfull
              injection hp with hp; subst hp
              refine ⟨accounted_more h.fair.acc ?_, ?_, needy_set ?_ t, h.fair.cache⟩
              · dsimp only [Room.got]; omega
              · intro hlim
                unfold Pool.full at hfull
                dsimp only [Room.got] at hlim ⊢
                rw [hlim] at hfull
                simp at hfull
                rw [Nat.add_mul, Nat.one_mul]
                omega
              · intro u w hu
                obtain ⟨h1, h2, h3⟩ := h.fair.needy u w hu
                unfold Pool.full at hfull
                rw [h1] at hfull
                simp at hfull
                omega
        · rename_i hp
          injection hs with hs; subst hs
          refine ⟨⟨h.fair.acc, h.fair.bounded, ?_, h.fair.cache⟩, h.trim⟩
          intro u w hu
          dsimp only [Room.set] at hu
          split at hu
          · unfold Pool.pop at hp
            split at hp
            · cases hp
            · rename_i hf
              split at hp
              · rename_i hfull
                unfold Pool.full at hfull
                simp at hfull
                exact ⟨hfull.1, hfull.2, fun hf' => absurd hf' hf⟩
              · cases hp
          · exact h.fair.needy u w hu
        · injection hs with hs; subst hs
          refine ⟨h.fair, hrest _ _ rfl ?_⟩
          intro e
          rcases List.mem_append.1 e with e | e
          · simp [Deed.locks] at e
          · exact hk ((List.dropWhile_sublist _).mem e)
      · rename_i w0 ha
        obtain ⟨n1, n2, n3⟩ := h.fair.needy t w0 ha
        split at hs
        · split at hs
          · rename_i hf
            injection hs with hs; subst hs
            refine ⟨?_, hrest _ k rfl hk⟩
            rw [usage_mem]
            refine ⟨accounted_more h.fair.acc ?_, h.fair.bounded, needy_set ?_ t, h.fair.cache⟩
            · dsimp only [Room.got]; omega
            · intro u w hu
              obtain ⟨h1, h2, h3⟩ := h.fair.needy u w hu
              refine ⟨h1, h2, fun hf' => h3 hf⟩
          · rename_i hf
            injection hs with hs; subst hs
            refine ⟨⟨h.fair.acc, h.fair.bounded, ?_, h.fair.cache⟩, h.trim⟩
            intro u w hu
            dsimp only [Room.set] at hu
            split at hu
            · exact ⟨n1, n2, fun hf' => absurd hf' hf⟩
            · exact h.fair.needy u w hu
        · injection hs with hs; subst hs; exact h
    | rotate p =>
      injection hs with hs; subst hs
      refine ⟨?_, hrest _ k rfl hk⟩
      have e : ∀ x : Room, x.mem = Room.set s.mem p (s.old p) → x.old = Room.set s.old p (s.mem p) → usage x = usage s := by
        intro x h1 h2
        funext q
        simp only [usage, h1, h2, Room.set]
        split
        · rename_i e; subst e; omega
        · rfl
      rw [e _ rfl rfl]
      exact h.fair
    | fin => injection hs with hs; subst hs; exact ⟨h.fair, hrest _ k rfl hk⟩
    | reset => exact absurd (by simp) ht
    | free p =>
      injection hs with hs; subst hs
      refine ⟨?_, hrest _ k rfl hk⟩
      have hx := fair_give_back h.fair (p := p) (k := s.old p) (by simp [usage])
      have e : ∀ x : Room, x.mem = s.mem → x.old = Room.set s.old p 0 → usage x = Room.set (usage s) p (usage s p - s.old p) := by
        intro x h1 h2
        funext q
        simp only [usage, h1, h2, Room.set]
        split
        · rename_i e; subst e; omega
        · rfl
      dsimp only
      rw [e { s.give_back (s.old p) with old := Room.set s.old p 0, rest := Room.set s.rest t k } (give_back_same s _).2.2.2.1 rfl]
      exact hx
    | drop p =>
      injection hs with hs; subst hs
      refine ⟨?_, hrest _ k rfl hk⟩
      have hx := fair_give_back h.fair (p := p) (k := s.mem p) (by simp [usage])
      have hy := fair_give_back hx (p := p) (k := s.old p) (by rw [set_at]; simp [usage])
      rw [set_at, set_set] at hy
      have e : ∀ x : Room, x.mem = Room.set s.mem p 0 → x.old = Room.set s.old p 0 →
          usage x = Room.set (usage s) p (usage s p - s.mem p - s.old p) := by
        intro x h1 h2
        funext q
        simp only [usage, h1, h2, Room.set]
        split
        · rename_i e; subst e; omega
        · rfl
      rw [e _ rfl rfl]
      exact hy

theorem just_run {first : Bool} {n : Nat} (sched : List (Nat × Bool)) : ∀ s s', Just s → run first n s sched = .ok s' → Just s' := by
  induction sched with
  | nil => intro s s' h hs; injection hs with hs; subst hs; exact h
  | cons e sched ih =>
    intro s s' h hs
    obtain ⟨t, b⟩ := e
    rw [run] at hs
    split at hs
    · split at hs
      · rename_i s1 h1; exact ih s1 s' (just_step h h1) hs
      all_goals cases hs
    · exact ih s s' h hs

theorem over_zero (n : Nat) : over n (fun _ => 0) = 0 := by
  induction n with
  | zero => rfl
  | succ n ih => rw [over_succ, ih]

theorem events_trim (es : List (Nat × Nat)) : ∀ done, Deed.reset ∉ Deed.events done es := by
  induction es with
  | nil => intro done; simp [Deed.events, Deed.locks]
  | cons e es ih =>
    intro done h
    obtain ⟨p, k⟩ := e
    rw [Deed.events] at h
    rcases List.mem_append.1 h with h | h
    · rcases List.mem_append.1 h with h | h
      · simp [Deed.locks] at h
      · cases List.eq_of_mem_replicate h
    · exact ih _ h

theorem deeds_trim (prog : List Job) (h : .gc ∉ prog) : Deed.reset ∉ deeds prog := by
  intro hm
  simp only [deeds, List.mem_flatMap] at hm
  obtain ⟨j, hj, hm⟩ := hm
  cases j with
  | write es =>
    have hm : Deed.reset ∈ Deed.events [] es ++ [Deed.fin] := hm
    rcases List.mem_append.1 hm with hm | hm
    · exact events_trim es [] hm
    · simp at hm
  | refresh p => simp [Job.deeds, Deed.refresh_run, Deed.locks] at hm
  | drop p => simp [Job.deeds, Deed.engine_drop, Deed.locks] at hm
  | gc => exact h hj
  | other c => simp [Job.deeds, Deed.other, Deed.locks] at hm

theorem just_start (c : Limits) (prog : Nat → List Job) (hc : c.wm ≤ c.cache) (hp : 0 < c.page_size) (h : ∀ t, .gc ∉ prog t) :
    Just (start c prog) := by
  refine ⟨⟨?_, ?_, ?_, hc⟩, fun t => deeds_trim _ (h t)⟩
  · intro n
    have : over n (usage (start c prog)) = 0 := over_zero n
    rw [this]
    exact Nat.le_refl _
  · intro _
    show 0 * c.page_size < c.wm + c.page_size
    omega
  · intro t w hw; cases hw

end Verif.C81
