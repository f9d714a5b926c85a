import Verif.Proofs.Heap

namespace Verif.Mem
open Pages

def Apart (x y : Alloc) : Prop := x.page ≠ y.page ∨ x.off + x.size ≤ y.off ∨ y.off + y.size ≤ x.off

structure WInv (n : Nat) (w : W) (free : List Nat) (own : Nat → List Nat) : Prop where
  inv : Inv n w.mm w.heap [] free own
  count : w.mm.count = w.mm.pages.length + w.fails
  bd : Bd w.mm
  pend : ∀ h s, w.pend h = some s → h < n ∧ 0 ≤ s ∧ s ≤ w.mm.pageSize
  live : ∀ x ∈ w.live, x.heap < n ∧ x.page ∈ own x.heap ∧ 0 ≤ x.off ∧ 0 ≤ x.size ∧
    ∃ s, get w.mm.pages x.page = some s ∧ x.off + x.size ≤ s.used
  apart : w.live.Pairwise Apart

theorem settle_ok {n : Nat} {w : W} {free : List Nat} {own : Nat → List Nat} (i : WInv n w free own) (h : Nat) (hn : h < n)
    (size : Int) (h0 : 0 ≤ size) (h' : Heap) (m' : Mm) (p : Heap.Ptr) (env : Option Nat) (ho : Out n w.mm w.heap own h size h' m' p env) :
    (∃ free' own', WInv n (settle w h size (h', m', p)) free' own') ∧
      (env ≠ none → (settle w h size (h', m', p)).fails = w.fails) := by
  obtain ⟨hk, hb, free', own', hi, ⟨hm1, hm2⟩, hr⟩ := ho
  have hlive : ∀ x ∈ w.live, x.heap < n ∧ x.page ∈ own' x.heap ∧ 0 ≤ x.off ∧ 0 ≤ x.size ∧
      ∃ s, get m'.pages x.page = some s ∧ x.off + x.size ≤ s.used := by
    intro x hx
    obtain ⟨a1, a2, a3, a4, s, a5, a6⟩ := i.live x hx
    obtain ⟨s', b1, b2⟩ := hm2 x.heap a1 x.page a2 s a5
    exact ⟨a1, hm1 x.heap a1 x.page a2, a3, a4, s', b1, by omega⟩
  have hpend : ∀ v : Option Int, (∀ s, v = some s → 0 ≤ s ∧ s ≤ m'.pageSize) →
      ∀ j s, upd w.pend h v j = some s → j < n ∧ 0 ≤ s ∧ s ≤ m'.pageSize := by
    intro v hv j s hs
    unfold upd at hs
    split at hs
    · rename_i e; subst e
      exact ⟨hn, hv s hs⟩
    · have := i.pend j s hs
      rw [hk.size]; exact this
  have hct := i.count
  cases p with
  | «at» p off =>
    obtain ⟨h1, h2, h3, ⟨s, h4, h5⟩, h6, h7⟩ := hr
    refine ⟨⟨free', own', hi, ?_, hb i.bd, hpend none (by simp), ?_, ?_⟩, fun _ => rfl⟩
    · dsimp only [settle]; omega
    · intro x hx
      dsimp only [settle] at hx ⊢
      rcases List.mem_cons.1 hx with rfl | hx
      · exact ⟨hn, h2, h3, h0, s, h4, by dsimp only; omega⟩
      · exact hlive x hx
    · dsimp only [settle]
      refine List.pairwise_cons.2 ⟨?_, i.apart⟩
      intro y hy
      by_cases e : p = y.page
      · right; right
        obtain ⟨a1, a2, _, _, t, a5, a6⟩ := i.live y hy
        obtain ⟨t', b1, b2⟩ := h6 y.heap a1 (e ▸ a2)
        rw [← e, b1] at a5
        cases a5
        dsimp only
        omega
      · exact .inl e
  | null =>
    obtain ⟨h1, h2⟩ := hr
    refine ⟨⟨free', own', hi, ?_, hb i.bd, hpend none (by simp), hlive, i.apart⟩, fun _ => rfl⟩
    dsimp only [settle]; rw [h2]; exact hct
  | wait =>
    obtain ⟨h1, h2⟩ := hr
    refine ⟨⟨free', own', hi, ?_, hb i.bd, hpend (some size) ?_, hlive, i.apart⟩, fun _ => rfl⟩
    · dsimp only [settle]; omega
    · intro s hs; cases hs; exact ⟨h0, by rw [hk.size]; exact h1⟩
  | throw =>
    obtain ⟨h1, h2⟩ := hr
    refine ⟨⟨free', own', hi, ?_, hb i.bd, hpend none (by simp), hlive, i.apart⟩, ?_⟩
    · dsimp only [settle]
      split
      · omega
      · rcases h2 with h2 | ⟨h2, _⟩
        · contradiction
        · omega
    · intro he
      dsimp only [settle]
      rcases h2 with h2 | ⟨_, h2⟩
      · rw [if_pos h2]
      · exact absurd h2 he

theorem move_perm (own : Nat → List Nat) (n a b : Nat) (ha : a < n) (hb : b < n) (hab : a ≠ b) (hz : own a = []) :
    ((List.range n).flatMap own).Perm ((List.range n).flatMap (upd (upd own a (own b)) b [])) := by
  have h1 := split_perm own b n hb
  have h2 := split_perm (upd (upd own a (own b)) b []) a n ha
  have h3 : upd (upd own a (own b)) b [] a = own b := by simp [upd, hab]
  have h4 : rest (upd (upd own a (own b)) b []) a n = rest own b n := by
    unfold rest
    apply flatMap_congr'
    intro j _
    by_cases ea : j = a
    · subst ea; simp [upd, hab, hz]
    · by_cases eb : j = b
      · subst eb; simp [upd]
      · simp [upd, ea, eb]
  rw [h3, h4] at h2
  exact h1.trans h2.symm

theorem step_ok {n : Nat} {w : W} {free : List Nat} {own : Nat → List Nat} (i : WInv n w free own) (e : Ev) :
    ∃ w' free' own', step n w e = .ok w' ∧ WInv n w' free' own' ∧ Keep w.mm w'.mm ∧
      ((∀ h size, e ≠ .alloc h size none) → w'.fails = w.fails) := by
  have hc : 0 ≤ w.mm.count := by rw [i.count]; omega
  have settle_keep : ∀ h size r, Keep w.mm r.2.1 → Keep w.mm (settle w h size r).mm := by
    intro h size r hk
    unfold settle
    split <;> exact hk
  cases e with
  | alloc h size env =>
    unfold step; dsimp only
    split
    · rename_i hh
      obtain ⟨h', m', p, h1, h2⟩ := allocate_ok i.inv hc h hh.1 size (by omega) env hh.2.2
      rw [h1]
      obtain ⟨⟨free', own', h3⟩, h4⟩ := settle_ok i h hh.1 size (by omega) h' m' p env h2
      refine ⟨_, free', own', rfl, h3, settle_keep _ _ _ h2.1, ?_⟩
      intro he
      exact h4 (fun e => he h size (by rw [e]))
    · exact ⟨w, free, own, rfl, i, Keep.refl _, fun _ => rfl⟩
  | wake h =>
    unfold step; dsimp only
    cases hp : w.pend h with
    | none => exact ⟨w, free, own, rfl, i, Keep.refl _, fun _ => rfl⟩
    | some size =>
      obtain ⟨a1, a2, a3⟩ := i.pend h size hp
      obtain ⟨h', m', p, h1, h2⟩ := resume_ok i.inv h a1 size a2 a3 hc
      dsimp only
      rw [h1]
      obtain ⟨⟨free', own', h3⟩, h4⟩ := settle_ok i h a1 size a2 h' m' p (some 0) h2
      exact ⟨_, free', own', rfl, h3, settle_keep _ _ _ h2.1, fun _ => h4 (by simp)⟩
  | reset h =>
    unfold step; dsimp only
    split
    · rename_i hh
      obtain ⟨m', free', h1, h2, h3, h4, h5, h6⟩ := reset_ok i.inv h hh.1
      rw [h1]
      refine ⟨_, free', _, rfl, ⟨h4, ?_, h3 i.bd, ?_, ?_, ?_⟩, h2, fun _ => rfl⟩
      · have := i.count
        dsimp only
        omega
      · intro j s hs
        have := i.pend j s hs
        dsimp only
        rw [h2.size]; exact this
      · intro x hx
        dsimp only at hx ⊢
        obtain ⟨hx1, hx2⟩ := List.mem_filter.1 hx
        have hne : x.heap ≠ h := by simpa using hx2
        obtain ⟨a1, a2, a3, a4, s, a5, a6⟩ := i.live x hx1
        refine ⟨a1, by simp [upd, hne, a2], a3, a4, s, ?_, a6⟩
        rw [h6 x.heap a1 hne x.page a2]; exact a5
      · exact i.apart.filter _
    · exact ⟨w, free, own, rfl, i, Keep.refl _, fun _ => rfl⟩
  | trim =>
    unfold step; dsimp only
    obtain ⟨m', h1, h2, h3, h4, h5, h6⟩ := trim_ok i.inv
    rw [h1]
    refine ⟨_, [], own, rfl, ⟨h4, ?_, h3 i.bd, ?_, ?_, i.apart⟩, h2, fun _ => rfl⟩
    · have := i.count
      dsimp only
      omega
    · intro j s hs
      have := i.pend j s hs
      dsimp only
      rw [h2.size]; exact this
    · intro x hx
      obtain ⟨a1, a2, a3, a4, s, a5, a6⟩ := i.live x hx
      refine ⟨a1, a2, a3, a4, s, ?_, a6⟩
      dsimp only
      rw [h6 x.heap a1 x.page a2]; exact a5
  | move a b =>
    unfold step; dsimp only
    split
    · rename_i hh
      obtain ⟨ha, hb, hab, _, _, hz⟩ := hh
      have hz' : own a = [] := by
        have := i.inv.count a ha
        rw [hz] at this
        exact List.length_eq_zero_iff.1 (by omega)
      refine ⟨_, free, upd (upd own a (own b)) b [], rfl, ⟨?_, i.count, i.bd, i.pend, ?_, ?_⟩, Keep.refl _, fun _ => rfl⟩
      · have hj : ∀ j, j < n → (upd (upd w.heap a (w.heap b)) b Heap.init j = Heap.init ∧ upd (upd own a (own b)) b [] j = []) ∨
            ∃ k, k < n ∧ upd (upd w.heap a (w.heap b)) b Heap.init j = w.heap k ∧ upd (upd own a (own b)) b [] j = own k := by
          intro j hj
          by_cases eb : j = b
          · left; simp [upd, eb]
          · right
            by_cases ea : j = a
            · exact ⟨b, hb, by simp [upd, ea, hab]⟩
            · exact ⟨j, hj, by simp [upd, ea, eb]⟩
        constructor
        · exact i.inv.nodup
        · refine i.inv.perm.trans ?_
          exact ((move_perm own n a b ha hb hab hz').append_left free).append_left []
        · exact i.inv.cfree
        · exact i.inv.nfree
        · intro j hj'
          dsimp only
          rcases hj j hj' with ⟨e1, e2⟩ | ⟨k, hk, e1, e2⟩
          · rw [e1, e2]; rfl
          · rw [e1, e2]; exact i.inv.cown k hk
        · intro j hj'
          dsimp only
          rcases hj j hj' with ⟨e1, e2⟩ | ⟨k, hk, e1, e2⟩
          · rw [e1, e2]; rfl
          · rw [e1, e2]; exact i.inv.tail k hk
        · intro j hj'
          dsimp only
          rcases hj j hj' with ⟨e1, e2⟩ | ⟨k, hk, e1, e2⟩
          · rw [e1, e2]; rfl
          · rw [e1, e2]; exact i.inv.count k hk
        · intro j hj' c hc'
          rcases hj j hj' with ⟨e1, e2⟩ | ⟨k, hk, e1, e2⟩
          · rw [e2] at hc'; simp at hc'
          · rw [e2] at hc'; exact i.inv.used k hk c hc'
        · exact i.inv.loose
        · exact i.inv.size
      · intro x hx
        obtain ⟨y, hy, rfl⟩ := List.mem_map.1 hx
        obtain ⟨a1, a2, a3, a4, s, a5, a6⟩ := i.live y hy
        by_cases eb : y.heap = b
        · rw [if_pos eb]
          dsimp only
          refine ⟨ha, ?_, a3, a4, s, a5, a6⟩
          simp only [upd, if_neg hab, if_true]
          rw [← eb]; exact a2
        · rw [if_neg eb]
          refine ⟨a1, ?_, a3, a4, s, a5, a6⟩
          by_cases ea : y.heap = a
          · rw [ea, hz'] at a2; simp at a2
          · simp only [upd, if_neg eb, if_neg ea]; exact a2
      · dsimp only
        rw [List.pairwise_map]
        refine i.apart.imp ?_
        intro x y hxy
        unfold Apart at *
        split <;> split <;> exact hxy
    · exact ⟨w, free, own, rfl, i, Keep.refl _, fun _ => rfl⟩

theorem run_ok {n : Nat} : ∀ (es : List Ev) (w : W) (free : List Nat) (own : Nat → List Nat), WInv n w free own →
    ∃ w' free' own', run n w es = .ok w' ∧ WInv n w' free' own' ∧ Keep w.mm w'.mm ∧
      ((∀ h size, .alloc h size none ∉ es) → w'.fails = w.fails) := by
  intro es
  induction es with
  | nil => intro w free own i; exact ⟨w, free, own, rfl, i, Keep.refl _, fun _ => rfl⟩
  | cons e es ih =>
    intro w free own i
    obtain ⟨w1, f1, o1, h1, h2, h3, h4⟩ := step_ok i e
    obtain ⟨w2, f2, o2, g1, g2, g3, g4⟩ := ih w1 f1 o1 h2
    refine ⟨w2, f2, o2, ?_, g2, h3.trans g3, ?_⟩
    · rw [run, h1]
      exact g1
    · intro hne
      rw [g4 (fun h size hm => hne h size (by simp [hm])), h4 (fun h size he => hne h size (by simp [he]))]

theorem start_ok (n : Nat) (page_size : Int) (cache : Nat) (limit limit_error : Bool) (wm : Nat) (h : Settings page_size wm) :
    WInv n (start (Mm.init page_size cache limit limit_error wm)) [] (fun _ => []) where
  inv := {
    nodup := List.nodup_nil
    perm := by
      have : (List.range n).flatMap (fun _ => ([] : List Nat)) = [] := by
        rw [List.flatMap_eq_nil_iff]; intro _ _; rfl
      rw [this]; exact List.Perm.refl _
    cfree := rfl
    nfree := rfl
    cown := fun _ _ => rfl
    tail := fun _ _ => rfl
    count := fun _ _ => rfl
    used := by intro _ _ a ha; simp at ha
    loose := by intro a ha; simp at ha
    size := by have := h.1; show 0 < page_size - 16; omega }
  count := rfl
  bd := by
    intro _ _ _ _
    have := h.1
    show (0 : Int) * _ < wm + (page_size - 16)
    rw [Int.zero_mul]; omega
  pend := by intro h s hs; cases hs
  live := by intro x hx; cases hx
  apart := List.Pairwise.nil

/-- Every run from the start is defined and keeps the invariant. -/
theorem reach {n : Nat} {page_size : Int} {cache : Nat} {limit limit_error : Bool} {wm : Nat} (hs : Settings page_size wm) (es : List Ev) :
    ∃ w free own, run n (start (Mm.init page_size cache limit limit_error wm)) es = .ok w ∧ WInv n w free own ∧
      w.mm.pageSize = page_size - 16 ∧ w.mm.limit = limit ∧ w.mm.limitWm = wm ∧
      ((∀ h size, .alloc h size none ∉ es) → w.fails = 0) := by
  obtain ⟨w, f, o, h1, h2, h3, h4⟩ := run_ok es _ _ _ (start_ok n page_size cache limit limit_error wm hs)
  exact ⟨w, f, o, h1, h2, h3.size, h3.limit, h3.wm, h4⟩

theorem length_le_of_perm {n : Nat} {w : W} {free : List Nat} {own : Nat → List Nat} (i : WInv n w free own) :
    free.length ≤ w.mm.pages.length ∧ ∀ h, h < n → (own h).length ≤ w.mm.pages.length := by
  have h1 := i.inv.perm.length_eq
  rw [keys_length] at h1
  simp only [List.length_append, List.length_nil] at h1
  refine ⟨by omega, ?_⟩
  intro h hn
  have h2 := (split_perm own h n hn).length_eq
  rw [List.length_append] at h2
  omega

theorem cached_eq {n : Nat} {w : W} {free : List Nat} {own : Nat → List Nat} (i : WInv n w free own) : cached w = free :=
  walk_chain _ _ _ _ i.inv.cfree (length_le_of_perm i).1

theorem owned_eq {n : Nat} {w : W} {free : List Nat} {own : Nat → List Nat} (i : WInv n w free own) (h : Nat) (hn : h < n) :
    owned w h = own h :=
  walk_chain _ _ _ _ (i.inv.cown h hn) ((length_le_of_perm i).2 h hn)

theorem sum_lengths (ws : List Nat) (f : Nat → List Nat) : (ws.map (fun h => (f h).length)).sum = (ws.flatMap f).length := by
  induction ws with
  | nil => rfl
  | cons a ws ih => rw [List.map_cons, List.sum_cons, List.flatMap_cons, List.length_append, ih]

theorem exact_of {n : Nat} {w : W} {free : List Nat} {own : Nat → List Nat} (i : WInv n w free own) (hf : w.fails = 0) : Exact n w := by
  have hfm : (List.range n).flatMap (owned w) = (List.range n).flatMap own :=
    flatMap_congr' _ _ _ (fun h hh => owned_eq i h (List.mem_range.1 hh))
  have hp := i.inv.perm
  have hl := hp.length_eq
  rw [keys_length] at hl
  simp only [List.length_append, List.length_nil] at hl
  have hct := i.count
  have hnf := i.inv.nfree
  constructor
  · rw [i.count, hf]; simp
  · rw [cached_eq i]; exact i.inv.nfree
  · rw [sum_lengths, hfm]
    omega
  · intro h hn; rw [owned_eq i h hn]; exact i.inv.count h hn
  · rw [cached_eq i, hfm]; exact hp

end Verif.Mem
