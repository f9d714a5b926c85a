import Verif.Model.Whole
import Verif.Proofs.Ranges
import Verif.Model.Durable

/-! Helper lemmas: the partition index of the whole database, with partitions of
one interval below 2^31. -/
namespace Verif.Whole
open Rb Spec Mapping Cursor
open Dur (partOf)

/-- Partitions of one interval, below 2^31. -/
def Grid (iv : Nat) (L : List (Slice CPart)) : Prop :=
  ∀ s ∈ L, s.max = s.min + iv - 1 ∧ partOf iv s.min = s.min ∧ s.min + iv ≤ 2147483648

theorem partOf_le (iv id : Nat) : partOf iv id ≤ id := Nat.sub_le _ _

theorem partOf_mul (iv id : Nat) : partOf iv id = iv * (id / iv) := by
  unfold partOf Ranges.intervalOf
  have := Nat.div_add_mod id iv
  omega

theorem partOf_in {iv : Nat} (h : 0 < iv) (id : Nat) : partOf iv id ≤ id ∧ id ≤ partOf iv id + iv - 1 := by
  have := Nat.mod_lt id h
  have := partOf_le iv id
  unfold partOf Ranges.intervalOf at *
  omega

theorem partOf_of_in {iv p id : Nat} (hp : partOf iv p = p) (h1 : p ≤ id) (h2 : id ≤ p + iv - 1) (hi : 0 < iv) :
    partOf iv id = p := by
  rw [partOf_mul] at hp
  obtain ⟨d, rfl⟩ : ∃ d, id = p + d := ⟨id - p, by omega⟩
  have hd : d < iv := by omega
  rw [partOf_mul]
  generalize p / iv = k at hp
  subst hp
  rw [Nat.mul_add_div hi, Nat.div_eq_of_lt hd, Nat.add_zero]

theorem partOf_idem {iv : Nat} (h : 0 < iv) (id : Nat) : partOf iv (partOf iv id) = partOf iv id := by
  rw [partOf_mul iv id, partOf_mul, Nat.mul_div_cancel_left _ h]

theorem Grid.covers {iv : Nat} {L : List (Slice CPart)} (hi : 0 < iv) (h : Grid iv L) {s : Slice CPart} (hs : s ∈ L) (id : Nat) :
    Covers s id ↔ s.min = partOf iv id := by
  obtain ⟨h1, h2, _⟩ := h s hs
  constructor
  · rintro ⟨a, b⟩
    exact (partOf_of_in h2 a (by omega) hi).symm
  · intro e
    have := partOf_in hi id
    unfold Covers
    omega

theorem Grid.near {iv : Nat} {L : List (Slice CPart)} (h : Grid iv L) (hi : 0 < iv) (hv : iv < 2147483648) {id : Nat}
    (hid : id < 2147483648 ∨ ∃ s ∈ L, id = s.max + 1) : Near L id := by
  intro s hs
  obtain ⟨h1, _, h3⟩ := h s hs
  refine ⟨fun a b => ?_, fun a b => by omega⟩
  rcases hid with hid | ⟨u, hu, rfl⟩
  · omega
  · obtain ⟨g1, _, g3⟩ := h u hu
    have := b u hu (by omega)
    omega

theorem setAt_inv {m : Mapping CPart} {L : List (Slice CPart)} (h : Mapping.Inv m L) {x : Loc (Slice CPart)}
    (hx : x.tree = m.tree) (c : CPart) :
    L = x.lo ++ x.v :: x.hi ∧ Mapping.Inv (setAt m x c) (x.lo ++ { x.v with val := c } :: x.hi) := by
  have hL : L = x.lo ++ x.v :: x.hi := by rw [← h.list, ← hx, x.inorder_eq]
  refine ⟨hL, ?_, ?_, ?_, ?_⟩
  · obtain ⟨cc, hh, a, b, d⟩ := parts_of_zip (p := x.path) (t := .node x.c x.l x.v x.r) (by
      show Valid x.tree
      rw [hx]; exact h.valid)
    show Valid (zip (.node x.c x.l { x.v with val := c } x.r) x.path)
    have hb : RB cc hh (.node x.c x.l { x.v with val := c } x.r) := by
      revert b
      generalize x.c = col
      intro b
      cases b with
      | red e1 e2 => exact .red e1 e2
      | black e1 e2 => exact .black e1 e2
    cases cc with
    | black => exact zip_black a hb
    | red => exact zip_any a (d rfl) hb
  · exact Loc.inorder_eq _
  · obtain ⟨pw, wf⟩ := h.sorted
    rw [hL] at pw wf
    refine ⟨?_, ?_⟩
    · rw [List.pairwise_append, List.pairwise_cons] at pw ⊢
      obtain ⟨p1, ⟨p2, p3⟩, p4⟩ := pw
      refine ⟨p1, ⟨p2, p3⟩, fun a ha b hb => ?_⟩
      rcases List.mem_cons.1 hb with rfl | hb
      · exact p4 a ha x.v (by simp)
      · exact p4 a ha b (by simp [hb])
    · intro s hs
      rcases List.mem_append.1 hs with hs | hs
      · exact wf s (by simp [hs])
      · rcases List.mem_cons.1 hs with rfl | hs
        · exact wf x.v (by simp)
        · exact wf s (by simp [hs])
  · show m.count = _
    rw [h.count, hL]
    simp

/-- The slices after a change, by membership. -/
structure Repl (L L' : List (Slice CPart)) (u : Slice CPart) : Prop where
  new : u ∈ L'
  old : ∀ s ∈ L', s = u ∨ (s ∈ L ∧ s.min ≠ u.min)
  keep : ∀ s ∈ L, s.min ≠ u.min → s ∈ L'

theorem min_unique {L : List (Slice CPart)} (h : Mapping.Sorted L) {s u : Slice CPart} (hs : s ∈ L) (hu : u ∈ L)
    (e : s.min = u.min) : s = u := by
  obtain ⟨l1, l2, rfl⟩ := List.append_of_mem hs
  have hp := h.parts
  rcases List.mem_append.1 hu with hu | hu
  · have := hp.1 u hu; omega
  · rcases List.mem_cons.1 hu with hu | hu
    · exact hu.symm
    · have := hp.2.1 u hu; omega

theorem setAt_repl {m : Mapping CPart} {L : List (Slice CPart)} (h : Mapping.Inv m L) {x : Loc (Slice CPart)}
    (hx : x.tree = m.tree) (c : CPart) :
    x.v ∈ L ∧ ∃ L', Mapping.Inv (setAt m x c) L' ∧ Repl L L' { x.v with val := c } := by
  obtain ⟨hL, hi⟩ := setAt_inv h hx c
  have hp := (hL ▸ h.sorted).parts
  refine ⟨by rw [hL]; simp, _, hi, by simp, ?_, ?_⟩
  · intro s hs
    rcases List.mem_append.1 hs with hs | hs
    · have := hp.1 s hs
      exact .inr ⟨by rw [hL]; simp [hs], by dsimp only; omega⟩
    · rcases List.mem_cons.1 hs with rfl | hs
      · exact .inl rfl
      · have := hp.2.1 s hs
        exact .inr ⟨by rw [hL]; simp [hs], by dsimp only; omega⟩
  · intro s hs hne
    rw [hL] at hs
    simp only [List.mem_append, List.mem_cons] at hs ⊢
    rcases hs with hs | rfl | hs
    · exact .inl hs
    · exact absurd rfl hne
    · exact .inr (.inr hs)

theorem find_spec {iv : Nat} (hi : 0 < iv) (hv : iv < 2147483648) {m : Mapping CPart} {L : List (Slice CPart)}
    (h : Mapping.Inv m L) (hg : Grid iv L) {id : Nat} (hid : id < 2147483648) :
    (find m id = .ok none ∧ ∀ s ∈ L, s.min ≠ partOf iv id) ∨
    ∃ x, find m id = .ok (some x) ∧ x.tree = m.tree ∧ x.v ∈ L ∧ x.v.min = partOf iv id := by
  obtain ⟨r, m1, m2, m3⟩ := match_spec h id (by omega) (hg.near hi hv (.inl hid))
  have hm : (m.match id = .ok none ∧ ∀ s ∈ L, s.min ≠ partOf iv id) ∨
      ∃ x, m.match id = .ok (some x) ∧ x.tree = m.tree ∧ x.v ∈ L ∧ x.v.min = partOf iv id := by
    cases r with
    | none => exact .inl ⟨m1, fun s hs e => m2 s hs ((hg.covers hi hs id).2 e)⟩
    | some x => exact .inr ⟨x, m1, m3 x rfl, m2.1, (hg.covers hi m2.1 id).1 m2.2⟩
  unfold find
  rcases Ranges.last_spec h with ⟨h1, h2⟩ | ⟨x, h1, h2, h3⟩
  · rw [h1]; exact hm
  · rw [h1]
    dsimp only
    by_cases hc : sliceIn x.v id = true
    · rw [if_pos hc]
      refine .inr ⟨x, rfl, h2, h3, (hg.covers hi h3 id).1 ?_⟩
      simpa [sliceIn, Covers] using hc
    · rw [if_neg hc]
      exact hm

/-- Between partitions that are apart from the range the gap is the range. -/
theorem gaps_free {t : Tree (Slice CPart)} {min max : Nat} (hmm : min ≤ max) (hmax : max < 9223372036854775808) :
    ∀ (fuel : Nat) (o : Option (Loc (Slice CPart))),
      (∀ x, o = some x → x.tree = t) →
      (match o with
        | none => True
        | some x => (x.v :: x.hi).length < fuel ∧ Sorted (x.v :: x.hi) ∧ ∀ s ∈ x.v :: x.hi, s.max < min ∨ max < s.min) →
      0 < fuel → Ranges.gaps fuel o min max = .ok [(min, max)] := by
  intro fuel
  induction fuel with
  | zero => intro o _ _ h; omega
  | succ n ih =>
    intro o ht hs _
    cases o with
    | none => simp [Ranges.gaps, hmm]
    | some x =>
      obtain ⟨hl, hso, hap⟩ := hs
      have hp := Sorted.parts (lo := []) (by simpa using hso)
      unfold Ranges.gaps
      rw [if_pos hmm]
      dsimp only
      rcases hap x.v (by simp) with h1 | h1
      · rw [if_neg (by omega), if_neg (by simp [sliceIn]; omega)]
        refine ih _ ?_ ?_ (by simp at hl; omega)
        · intro y hy
          rcases next_spec (ht x rfl) rfl with ⟨h1, _⟩ | ⟨z, h1, h2, _⟩
          · rw [h1] at hy; cases hy
          · rw [h1] at hy; cases hy; exact h2
        · rcases next_spec (ht x rfl) rfl with ⟨h1, _⟩ | ⟨z, h1, _, _, _, h5⟩
          · rw [h1]; trivial
          · rw [h1]
            rw [h5] at hso hap hl
            exact ⟨by simp at hl ⊢; omega, ⟨(List.pairwise_cons.1 hso.pw).2, fun s h => hso.wf s (by simp [h])⟩,
              fun s hs => hap s (by simp [hs])⟩
      · rw [if_pos (by omega), if_pos h1]
        have hw : wrapU64 ((x.v.max + 1 : Nat) : Int) = x.v.max + 1 := by
          have := hp.2.2.2
          unfold wrapU64; omega
        have hn : 0 < n := by simp at hl; omega
        obtain ⟨n', rfl⟩ : ∃ n', n = n' + 1 := ⟨n - 1, by omega⟩
        have : Ranges.gaps (n' + 1) (Rb.next x) (wrapU64 ((x.v.max + 1 : Nat) : Int)) max = .ok [] := by
          unfold Ranges.gaps
          rw [hw, if_neg (by have := hp.2.2.1; omega)]
        rw [this]
        rfl

theorem lock_spec {iv : Nat} (hi : 0 < iv) (hv : iv < 2147483648) {m : Mapping CPart} {L : List (Slice CPart)}
    (h : Mapping.Inv m L) (hg : Grid iv L) {id : Nat} (hid : partOf iv id + iv ≤ 2147483648) :
    ∃ m' x L', lock iv m id = .ok (m', x) ∧ x.tree = m'.tree ∧ Mapping.Inv m' L' ∧ Grid iv L' ∧ x.v ∈ L' ∧
      x.v.min = partOf iv id ∧
      ((m' = m ∧ L' = L) ∨ ((∀ s ∈ L, s.min ≠ partOf iv id) ∧ x.v.val = newPart ∧ Repl L L' x.v)) := by
  have hin := partOf_in hi id
  unfold lock
  rcases find_spec hi hv h hg (id := id) (by omega) with ⟨h1, h2⟩ | ⟨x, h1, h2, h3, h4⟩
  · rw [h1]
    simp only [Res.bind_ok]
    have hw : wrapU64 (wrapU64 (((Ranges.intervalOf iv id : Nat) : Int) + iv) - 1) = partOf iv id + iv - 1 := by
      unfold partOf at *
      unfold wrapU64; omega
    rw [hw]
    have hp : Ranges.intervalOf iv id = partOf iv id := rfl
    rw [hp]
    have hap : ∀ u ∈ L, Apart (⟨partOf iv id, partOf iv id + iv - 1, newPart⟩ : Slice CPart) u := by
      intro u hu
      obtain ⟨g1, g2, _⟩ := hg u hu
      unfold Apart
      dsimp only
      by_cases c1 : u.max < partOf iv id
      · exact .inr c1
      · left
        apply Nat.lt_of_not_le
        intro c2
        by_cases c3 : partOf iv id ≤ u.min
        · have := partOf_of_in (partOf_idem hi id) c3 c2 hi
          exact h2 u hu (by rw [← g2]; exact this)
        · have := partOf_of_in g2 (id := partOf iv id) (by omega) (by omega) hi
          rw [partOf_idem hi] at this
          exact h2 u hu this.symm
    obtain ⟨m', lo, hi', a1, a2, a3, a4, a5⟩ := add_spec h (⟨partOf iv id, partOf iv id + iv - 1, newPart⟩ : Slice CPart)
      (by dsimp only; omega) (by dsimp only; omega) hap (hg.near hi hv (.inl (by dsimp only; omega)))
    have hfill : fill m (partOf iv id) (partOf iv id + iv - 1) = .ok m' := by
      unfold fill
      rw [if_neg (by omega)]
      by_cases hc : m.count = 0
      · rw [if_pos hc]; exact a1
      · rw [if_neg hc]
        have hne : L ≠ [] := by
          intro e
          apply hc
          rw [h.count, e]; rfl
        obtain ⟨y, s1, s2, s3, s4, s5⟩ := seek_spec h (partOf iv id) (by omega) (hg.near hi hv (.inl (by omega))) hne
        rw [s1]
        simp only [Res.bind_ok]
        rw [gaps_free (t := m.tree) (by omega) (by omega) _ (some y) (by rintro x ⟨⟩; exact s2) ?_ (by omega)]
        · simp only [Res.bind_ok, createAll]
          rw [a1]
          rfl
        · refine ⟨?_, ?_, ?_⟩
          · rw [h.count, s3]; simp; omega
          · have := h.sorted
            rw [s3] at this
            exact ⟨(List.pairwise_append.1 this.pw).2.1, fun s hs => this.wf s (by simp at hs ⊢; exact .inr hs)⟩
          · intro s hs
            have := hap s (by rw [s3]; simp at hs ⊢; exact .inr hs)
            unfold Apart at this
            dsimp only at this
            omega
    rw [hfill]
    simp only [Res.bind_ok]
    have hg' : Grid iv (lo ++ ⟨partOf iv id, partOf iv id + iv - 1, newPart⟩ :: hi') := by
      intro s hs
      rcases List.mem_append.1 hs with hs | hs
      · exact hg s (by rw [a2]; simp [hs])
      · rcases List.mem_cons.1 hs with rfl | hs
        · exact ⟨rfl, partOf_idem hi id, hid⟩
        · exact hg s (by rw [a2]; simp [hs])
    obtain ⟨r, m1, m2, m3⟩ := match_spec a3 id (by omega) (hg'.near hi hv (.inl (by omega)))
    rw [m1]
    simp only [Res.bind_ok]
    cases r with
    | none =>
      exfalso
      exact m2 _ (List.mem_append_right _ (List.mem_cons_self ..)) hin
    | some x =>
      have hmin := (hg'.covers hi m2.1 id).1 m2.2
      have hxv : x.v = ⟨partOf iv id, partOf iv id + iv - 1, newPart⟩ :=
        min_unique a3.sorted m2.1 (by simp) hmin
      refine ⟨m', x, _, rfl, m3 x rfl, a3, hg', m2.1, hmin, .inr ⟨h2, by rw [hxv], ?_⟩⟩
      have hb : ∀ s ∈ L, s.min ≠ x.v.min := fun s hs e => h2 s hs (e.trans hmin)
      refine ⟨m2.1, ?_, ?_⟩
      · intro s hs
        rcases List.mem_append.1 hs with hs | hs
        · have : s ∈ L := by rw [a2]; simp [hs]
          exact .inr ⟨this, hb s this⟩
        · rcases List.mem_cons.1 hs with rfl | hs
          · exact .inl hxv.symm
          · have : s ∈ L := by rw [a2]; simp [hs]
            exact .inr ⟨this, hb s this⟩
      · intro s hs _
        rw [a2] at hs
        simp only [List.mem_append, List.mem_cons] at hs ⊢
        rcases hs with hs | hs
        · exact .inl hs
        · exact .inr (.inr hs)
  · rw [h1]
    simp only [Res.bind_ok]
    exact ⟨m, x, L, rfl, h2, h, hg, h3, h4, .inl ⟨rfl, rfl⟩⟩

end Verif.Whole
