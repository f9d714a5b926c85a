import Verif.Proofs.C90

/-! C90: how many connections there are. -/

namespace Verif.C90
open Verif.Conn

theorem countP_far (q : Pc → Bool) (f : Nat → Pc) (r : Nat) (p : Pc) : ∀ n, n ≤ r →
    (List.range n).countP (fun a => q (if a = r then p else f a)) =
      (List.range n).countP (fun a => q (f a)) := by
  intro n hn
  apply List.countP_congr
  intro a ha
  have : a ≠ r := by have := List.mem_range.mp ha; omega
  rw [if_neg this]

theorem countP_at (q : Pc → Bool) (f : Nat → Pc) (r : Nat) (p : Pc) : ∀ n, r < n →
    (List.range n).countP (fun a => q (if a = r then p else f a)) + (if q (f r) then 1 else 0) =
      (List.range n).countP (fun a => q (f a)) + (if q p then 1 else 0) := by
  intro n
  induction n with
  | zero => intro h; omega
  | succ n ih =>
    intro h
    rw [List.range_succ, List.countP_append, List.countP_append, List.countP_singleton,
      List.countP_singleton]
    by_cases e : r = n
    · subst e
      rw [countP_far q f r p r (Nat.le_refl _), if_pos rfl]
      omega
    · have := ih (by omega)
      rw [if_neg (show n ≠ r from fun h => e h.symm)]
      omega

/-- The request is under way. -/
def under (p : Pc) : Bool := p != .idle

/-- The request has a handle. -/
def holds : Pc → Bool
  | .held _ | .run _ | .after _ _ => true
  | _ => false

theorem holds_idle : holds .idle = false := rfl
theorem holds_empty : holds .empty = false := rfl
theorem holds_held (h) : holds (.held h) = true := rfl
theorem holds_run (h) : holds (.run h) = true := rfl
theorem holds_after (h o) : holds (.after h o) = true := rfl
theorem under_idle : under .idle = false := rfl
theorem under_empty : under .empty = true := rfl
theorem under_held (h) : under (.held h) = true := rfl
theorem under_run (h) : under (.run h) = true := rfl
theorem under_after (h o) : under (.after h o) = true := rfl

/-- The handles are those in the cache and those that are held, and not more than
threads. -/
structure Few (n : Nat) (s : St) : Prop where
  live : s.live.length = s.list.length + (List.range n).countP (fun a => holds (s.pc a))
  room : s.closed = false → s.list.length + (List.range n).countP (fun a => under (s.pc a)) ≤ n

theorem count_le (n : Nat) (q : Nat → Bool) : (List.range n).countP q ≤ n := by
  have := List.countP_le_length (p := q) (l := List.range n)
  simpa using this

theorem few_step {n : Nat} {s s' : St} (hi : Inv s) (hf : Few n s) {e : Ev}
    (ho : s.closed = false) (hc : e = .close → Still s) (hw : ∀ r, who e = some r → r < n)
    (h : step s e = .ok s') : Few n s' := by
  have hl := hf.live
  have hr := hf.room ho
  unfold step at h
  rw [ho, if_neg (by simp)] at h
  cases e with
  | pop r =>
    have hrn := hw r rfl
    change pop r s = .ok s' at h
    unfold pop at h
    split at h
    · rename_i hp
      split at h
      · split at h
        · cases h
        · rename_i x hs hls
          injection h with h; subst h
          have h1 := countP_at holds s.pc r (.held x) n hrn
          have h2 := countP_at under s.pc r (.held x) n hrn
          rw [hp] at h1 h2
          rw [hls] at hl hr
          simp only [holds_idle, holds_empty, holds_held, holds_run, holds_after, under_idle,
      under_empty, under_held, under_run, under_after, Bool.false_eq_true, if_true, if_false, List.length_cons] at h1 h2 hl hr
          constructor
          · simp only [St.at]; omega
          · intro _; simp only [St.at]; omega
      · rename_i hn
        injection h with h; subst h
        have h1 := countP_at holds s.pc r .empty n hrn
        rw [hp] at h1
        simp only [holds_idle, holds_empty, holds_held, holds_run, holds_after, under_idle,
      under_empty, under_held, under_run, under_after, Bool.false_eq_true, if_true, if_false, List.length_cons] at h1
        have h3 := hi.count
        constructor
        · simp only [St.at]; omega
        · intro _
          have := count_le n (fun a => under ((s.at r .empty).pc a))
          show s.list.length + _ ≤ n
          omega
    · cases h
  | alloc r o =>
    have hrn := hw r rfl
    change alloc r o s = .ok s' at h
    unfold alloc at h
    split at h
    · rename_i hp
      injection h with h; subst h
      have h1 := countP_at holds s.pc r .idle n hrn
      have h2 := countP_at under s.pc r .idle n hrn
      rw [hp] at h1 h2
      simp only [holds_idle, holds_empty, holds_held, holds_run, holds_after, under_idle,
      under_empty, under_held, under_run, under_after, Bool.false_eq_true, if_true, if_false, List.length_cons] at h1 h2 hl hr
      constructor
      · simp only [St.at]; omega
      · intro _; simp only [St.at]; omega
    · rename_i x hp
      split at h
      · cases h
      · injection h with h; subst h
        have h1 := countP_at holds s.pc r (.held x) n hrn
        have h2 := countP_at under s.pc r (.held x) n hrn
        rw [hp] at h1 h2
        simp only [holds_idle, holds_empty, holds_held, holds_run, holds_after, under_idle,
      under_empty, under_held, under_run, under_after, Bool.false_eq_true, if_true, if_false, List.length_cons] at h1 h2 hl hr
        constructor
        · simp only [St.at, List.length_cons]; omega
        · intro _; simp only [St.at]; omega
    · cases h
  | begin r =>
    have hrn := hw r rfl
    change start r s = .ok s' at h
    unfold start at h
    split at h
    · rename_i x hp
      split at h
      · cases h
      · split at h
        · injection h with h; subst h
          have h1 := countP_at holds s.pc r (.run x) n hrn
          have h2 := countP_at under s.pc r (.run x) n hrn
          rw [hp] at h1 h2
          simp only [holds_idle, holds_empty, holds_held, holds_run, holds_after, under_idle,
      under_empty, under_held, under_run, under_after, Bool.false_eq_true, if_true, if_false, List.length_cons] at h1 h2 hl hr
          constructor
          · simp only [St.at]; omega
          · intro _; simp only [St.at]; omega
        · cases h
    · cases h
  | done r ok =>
    have hrn := hw r rfl
    change done r ok s = .ok s' at h
    unfold done at h
    split at h
    · rename_i x hp
      injection h with h; subst h
      have h1 := countP_at holds s.pc r (.after x ok) n hrn
      have h2 := countP_at under s.pc r (.after x ok) n hrn
      rw [hp] at h1 h2
      simp only [holds_idle, holds_empty, holds_held, holds_run, holds_after, under_idle,
      under_empty, under_held, under_run, under_after, Bool.false_eq_true, if_true, if_false, List.length_cons] at h1 h2 hl hr
      constructor
      · simp only [St.at]; omega
      · intro _; simp only [St.at]; omega
    · cases h
  | give r =>
    have hrn := hw r rfl
    change give r s = .ok s' at h
    unfold give at h
    split at h
    · rename_i x hp
      split at h
      · cases h
      · injection h with h; subst h
        have h1 := countP_at holds s.pc r .idle n hrn
        have h2 := countP_at under s.pc r .idle n hrn
        rw [hp] at h1 h2
        simp only [holds_idle, holds_empty, holds_held, holds_run, holds_after, under_idle,
      under_empty, under_held, under_run, under_after, Bool.false_eq_true, if_true, if_false, List.length_cons] at h1 h2 hl hr
        constructor
        · simp only [St.at, List.length_append, List.length_singleton]; omega
        · intro _; simp only [St.at, List.length_append, List.length_singleton]; omega
    · cases h
  | drop r =>
    have hrn := hw r rfl
    change drop r s = .ok s' at h
    rcases drop_ok hi r with ⟨m, h'⟩ | ⟨x, h0, hn, h'⟩
    · rw [h] at h'; cases h'
    · rw [h] at h'
      injection h' with h'; subst h'
      have hx := (hi.out r x h0).1
      have hlen := List.length_erase_of_mem hx
      have hpos := List.length_pos_of_mem hx
      have h1 := countP_at holds s.pc r .idle n hrn
      have h2 := countP_at under s.pc r .idle n hrn
      have h3 : holds (s.pc r) = true := by
        rcases h0 with h | h | ⟨o, h⟩ <;> rw [h] <;> rfl
      have h4 : under (s.pc r) = true := by
        rcases h0 with h | h | ⟨o, h⟩ <;> rw [h] <;> rfl
      rw [h3] at h1
      rw [h4] at h2
      simp only [holds_idle, holds_empty, holds_held, holds_run, holds_after, under_idle,
      under_empty, under_held, under_run, under_after, Bool.false_eq_true, if_true, if_false, List.length_cons] at h1
      have h5 : under .idle = false := rfl
      rw [h5] at h2
      simp at h2
      constructor
      · show (s.live.erase x).length = s.list.length + _
        simp only [St.at]; omega
      · intro _
        show s.list.length + _ ≤ n
        simp only [St.at]; omega
  | close =>
    change (cleanupAll s.list s).map _ = .ok s' at h
    have hs := hc rfl
    obtain ⟨t, h1, hi'⟩ := close_ok hi hs
    have heq : s' = t := by
      rw [h1] at h; injection h with h; exact h.symm
    subst heq
    have hno : ∀ r, s'.pc r = .idle := by
      have hrun : s.running = [] := by
        apply List.eq_nil_iff_forall_not_mem.mpr
        intro y hy
        obtain ⟨r, h'⟩ := hi.running y hy
        rw [hs r] at h'; cases h'
      obtain ⟨u, h2, _, h4, _, _⟩ := cleanup_all s.list s hrun hi.nodup hi.liveNodup hi.cached
      rw [h2] at h
      injection h with h
      subst h
      intro r
      show u.pc r = .idle
      rw [h4]; exact hs r
    have hcl : s'.closed = true := by
      obtain ⟨u, h2, h3⟩ := Res.bind_eq_ok.mp h
      injection h3 with h3
      subst h3; rfl
    have hlist : s'.list = [] := by
      obtain ⟨u, h2, h3⟩ := Res.bind_eq_ok.mp h
      injection h3 with h3
      subst h3; rfl
    constructor
    · rw [hi'.closed hcl, hlist]
      simp [hno, holds]
    · intro h; rw [hcl] at h; cases h

theorem few_reach {n : Nat} {s : St} (h : ReachBy n s) : Inv s ∧ Few n s := by
  induction h with
  | init =>
    refine ⟨inv_init, ?_⟩
    constructor
    · simp [init, holds]
    · intro _; simp [init, under]
  | step s e s' _ ho hc hw hs ih =>
    refine ⟨?_, few_step ih.1 ih.2 ho hc hw hs⟩
    rcases inv_step ih.1 ho e hc with ⟨m, h⟩ | ⟨t, h, hi⟩
    · rw [hs] at h; cases h
    · rw [hs] at h; injection h with h; rw [h]; exact hi

end Verif.C90
