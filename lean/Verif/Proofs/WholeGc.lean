import Verif.Proofs.WholeLog

/-! Helper lemmas: garbage collection of the log of the whole database. -/
namespace Verif.Whole
open Rb Spec Io Mapping Cursor
open C84 (Limits)

theorem lsnMin_spec : ∀ (fuel : Nat) (o : Option (Loc (Slice CPart))) (m : Nat) (l : List (Slice CPart)),
    (match o with
      | none => l = []
      | some x => l = x.v :: x.hi) → l.length ≤ fuel →
    ∃ r, lsnMin fuel o m = .ok r ∧ r ≤ m ∧ (∀ s ∈ l, r ≤ s.val.act.lsnMin ∧ r ≤ s.val.prev.lsnMin) ∧
      (r = m ∨ ∃ s ∈ l, r = s.val.act.lsnMin ∨ r = s.val.prev.lsnMin) := by
  intro fuel
  induction fuel with
  | zero =>
    intro o m l hl hf
    cases o with
    | none =>
      subst hl
      exact ⟨m, by unfold lsnMin; rfl, Nat.le_refl _, by simp, .inl rfl⟩
    | some x =>
      dsimp only at hl
      rw [hl] at hf
      simp at hf
  | succ n ih =>
    intro o m l hl hf
    cases o with
    | none =>
      subst hl
      exact ⟨m, by unfold lsnMin; rfl, Nat.le_refl _, by simp, .inl rfl⟩
    | some x =>
      dsimp only at hl
      subst hl
      unfold lsnMin
      dsimp only
      generalize hm1 : (if x.v.val.act.lsnMin < m then x.v.val.act.lsnMin else m) = m1
      generalize hm2 : (if x.v.val.prev.lsnMin < m1 then x.v.val.prev.lsnMin else m1) = m2
      have b1 : m1 ≤ m ∧ m1 ≤ x.v.val.act.lsnMin ∧ (m1 = m ∨ m1 = x.v.val.act.lsnMin) := by
        split at hm1 <;> omega
      have b2 : m2 ≤ m1 ∧ m2 ≤ x.v.val.prev.lsnMin ∧ (m2 = m1 ∨ m2 = x.v.val.prev.lsnMin) := by
        split at hm2 <;> omega
      obtain ⟨r, r1, r2, r3, r4⟩ := ih (Rb.next x) m2 x.hi (by
        rcases next_spec (x := x) rfl rfl with ⟨h1, h2⟩ | ⟨y, h1, _, _, _, h5⟩
        · rw [h1]; exact h2
        · rw [h1]; exact h5) (by simp at hf; omega)
      refine ⟨r, r1, by omega, ?_, ?_⟩
      · intro s hs
        rcases List.mem_cons.1 hs with rfl | hs
        · exact ⟨by omega, by omega⟩
        · exact r3 s hs
      · rcases r4 with r4 | ⟨s, hs, r4⟩
        · rcases b2.2.2 with h | h
          · rcases b1.2.2 with h' | h'
            · left; omega
            · right; exact ⟨x.v, by simp, by left; omega⟩
          · right; exact ⟨x.v, by simp, by right; omega⟩
        · right; exact ⟨s, by simp [hs], r4⟩

theorem durMin_att (db : Dur.Db) : ∀ (l : List Nat) (m0 : Nat),
    let r := (l.foldl (fun m p =>
      match (db.slots p).part with
      | none => m
      | some x =>
        let m := if x.act.lsnMin < m then x.act.lsnMin else m
        if x.prev.lsnMin < m then x.prev.lsnMin else m) m0)
    r = m0 ∨ ∃ p x, (db.slots p).part = some x ∧ (r = x.act.lsnMin ∨ r = x.prev.lsnMin) := by
  intro l
  induction l with
  | nil => intro m0; exact .inl rfl
  | cons p l ih =>
    intro m0
    dsimp only
    rw [List.foldl_cons]
    cases hp : (db.slots p).part with
    | none => exact ih m0
    | some x =>
      rcases ih (if x.prev.lsnMin < (if x.act.lsnMin < m0 then x.act.lsnMin else m0) then x.prev.lsnMin
        else (if x.act.lsnMin < m0 then x.act.lsnMin else m0)) with h | h
      · dsimp only at h ⊢
        rw [h]
        by_cases c1 : x.act.lsnMin < m0
        · rw [if_pos c1]
          by_cases c2 : x.prev.lsnMin < x.act.lsnMin
          · rw [if_pos c2]
            exact .inr ⟨p, x, hp, .inr rfl⟩
          · rw [if_neg c2]
            exact .inr ⟨p, x, hp, .inl rfl⟩
        · rw [if_neg c1]
          by_cases c2 : x.prev.lsnMin < m0
          · rw [if_pos c2]
            exact .inr ⟨p, x, hp, .inr rfl⟩
          · rw [if_neg c2]
            exact .inl rfl
      · exact .inr h

theorem lsnMin_eq {env : Env} {E A : List Event} {n k : Nat} {w : Db} {db : Dur.Db} {H : List Wal.Rec}
    (h : MapRel env E A n w.map w.phase w.disk db.slots) (hi : Dur.Inv env.iv db H k) :
    lsnMin w.map.count w.map.first 18446744073709551615 = .ok (Dur.lsnMin db) := by
  obtain ⟨L, hL⟩ := h
  obtain ⟨r, r1, r2, r3, r4⟩ := lsnMin_spec w.map.count w.map.first 18446744073709551615 L (by
    unfold Mapping.first
    by_cases hc : w.map.count = 0
    · rw [if_pos hc]
      have := hL.inv.count
      rw [hc] at this
      exact List.length_eq_zero_iff.1 this.symm
    · rw [if_neg hc]
      cases hm : Rb.min w.map.tree with
      | none =>
        have h1 := Rb.min_none hm
        have := hL.inv.list
        rw [h1] at this
        have h2 := hL.inv.count
        rw [← this] at h2
        exact absurd h2 hc
      | some x =>
        obtain ⟨h1, h2⟩ := Rb.min_some hm
        have := hL.inv.list
        rw [← h1, Rb.Loc.inorder_eq, h2] at this
        exact this.symm) (by rw [hL.inv.count]; exact Nat.le_refl _)
  rw [r1]
  congr 1
  apply Nat.le_antisymm
  · rcases durMin_att db db.known 18446744073709551615 with h | ⟨p, x, hp, h⟩
    · have h : Dur.lsnMin db = _ := h
      rw [h]
      exact r2
    · have h : Dur.lsnMin db = _ ∨ Dur.lsnMin db = _ := h
      have hs : ∃ s ∈ L, s.min = p := by
        apply Classical.byContradiction
        intro hn
        have := (hL.free p (fun s hs e => hn ⟨s, hs, e⟩)).1
        rw [this] at hp
        cases hp
      obtain ⟨s, hs, rfl⟩ := hs
      obtain ⟨y, e1, e2⟩ := hL.has s hs
      rw [hp] at e1
      cases e1
      obtain ⟨_, _, _, a3, _, _⟩ := e2.act
      obtain ⟨_, _, _, b3, _, _⟩ := e2.prev
      have := r3 s hs
      omega
  · rcases r4 with h | ⟨s, hs, h⟩
    · have := (Dur.lsnMin_fold db db.known 18446744073709551615).1
      rw [h]
      exact this
    · obtain ⟨y, e1, e2⟩ := hL.has s hs
      obtain ⟨_, _, _, a3, _, _⟩ := e2.act
      obtain ⟨_, _, _, b3, _, _⟩ := e2.prev
      have := Dur.lsnMin_le hi.known e1
      omega

/-- Garbage collection. -/
theorem gc_rel {env : Env} {E A : List Event} {n k : Nat} {w : Db} {db : Dur.Db} {H : List Wal.Rec} {fs : List C22.LogFile}
    (h : MapRel env E A n w.map w.phase w.disk db.slots) (hl : LogRel env.crcOn w.wal db fs) (hi : Dur.Inv env.iv db H k)
    (hp : w.pending = none) (hpe : w.pending = db.pending) (hq : ∀ p, w.phase p ≠ .applied ∧ w.phase p ≠ .completed) :
    ∃ s fs' k', gc w = .ok { w with wal := s } ∧ LogRel env.crcOn s (Dur.gc db) fs' ∧ Dur.Inv env.iv (Dur.gc db) H k' := by
  obtain ⟨fs', hr⟩ := walGc_rel hl rfl
  obtain ⟨k', hk⟩ := Dur.gc_inv hi (hpe.symm.trans hp) (by
    intro p x hx
    obtain ⟨L, hL⟩ := h
    have hs : ∃ s ∈ L, s.min = p := by
      apply Classical.byContradiction
      intro hn
      have := (hL.free p (fun s hs e => hn ⟨s, hs, e⟩)).1
      rw [this] at hx
      cases hx
    obtain ⟨s, hs, rfl⟩ := hs
    obtain ⟨y, e1, e2⟩ := hL.has s hs
    rw [hx] at e1
    cases e1
    have := hq s.min
    have hph := e2.phase
    cases hw : w.phase s.min <;> cases hy2 : x.phase <;> rw [hw, hy2] at hph <;> try exact hph.elim
    all_goals first | rfl | exact absurd hw this.1 | exact absurd hw this.2)
  refine ⟨_, fs', k', ?_, hr, hk⟩
  unfold gc
  rw [lsnMin_eq h hi]
  rfl

end Verif.Whole
