import Verif.Spec.C88
import Verif.Proofs.C11
import Verif.Proofs.C30

/-! Lemmas for C88. -/
namespace Verif.C88
open Spec Cursor Io Sweep Memtable Rb

/-! ### The sources of the merge keep their places -/

theorem pick_its (mc : MemCmp) {ι : Type} (f : IterFns ι) : ∀ (n : Nat) (done todo : List (MergeRef ι))
    (lst : Option (Nat × Event)), todo.length ≤ n →
    (Merge.pick mc f n done todo lst).1.map (·.it) = (done ++ todo).map (·.it)
  | 0, done, todo, lst, _ => rfl
  | n + 1, done, [], lst, _ => by simp [Merge.pick]
  | n + 1, done, r :: todo, lst, h => by
    have hl : todo.length ≤ n := by simpa using h
    unfold Merge.pick
    cases f.at' r.it with
    | none => dsimp only; rw [pick_its mc f n _ _ _ hl]; simp
    | some row =>
      cases lst with
      | none => dsimp only; rw [pick_its mc f n _ _ _ hl]; simp
      | some im =>
        obtain ⟨i, m⟩ := im
        dsimp only
        split
        · rw [pick_its mc f n _ _ _ hl]; simp
        · split
          · rw [pick_its mc f n _ _ _ (by simpa [Merge.clear] using hl)]
            simp [Merge.clear, Function.comp_def]
          · rw [pick_its mc f n _ _ _ hl]; simp

/-- The first source of a merge after merge_iterator_next. -/
theorem next_head {mc : MemCmp} {ι : Type} {f : IterFns ι} {m m' : Merge ι} {r : MergeRef ι} {rest : List (MergeRef ι)}
    (hm : m.list = r :: rest) (h : Merge.next mc f m = .ok m') :
    ∃ it adv rest', (if r.advance then f.next r.it else .ok r.it) = .ok it ∧ m'.list = ⟨it, adv⟩ :: rest' := by
  unfold Merge.next at h
  rw [Res.bind_eq_ok] at h
  obtain ⟨l, h1, h2⟩ := h
  rw [hm] at h1
  unfold Merge.advanceAll at h1
  rw [Res.bind_eq_ok] at h1
  obtain ⟨r', h3, h4⟩ := h1
  rw [Res.bind_eq_ok] at h4
  obtain ⟨rs, h5, h6⟩ := h4
  cases h6
  have hp := pick_its mc f (r' :: rs).length [] (r' :: rs) none (Nat.le_refl _)
  generalize Merge.pick mc f (r' :: rs).length [] (r' :: rs) none = pr at h2 hp
  obtain ⟨l2, mn⟩ := pr
  dsimp only at h2 hp
  cases h2
  cases l2 with
  | nil => simp at hp
  | cons q l2 =>
    simp only [List.nil_append, List.map_cons, List.cons.injEq] at hp
    refine ⟨q.it, q.advance, l2, ?_, rfl⟩
    rw [hp.1]
    by_cases ha : r.advance
    · rw [if_pos ha] at h3 ⊢
      rw [Res.bind_eq_ok] at h3
      obtain ⟨i, h7, h8⟩ := h3
      cases h8
      exact h7
    · rw [if_neg ha] at h3 ⊢
      cases h3
      rfl

theorem yields_unique {ι : Type} {f : IterFns ι} : ∀ {L1 L2 : List Event} {it : ι}, C13.Yields f it L1 → C13.Yields f it L2 → L1 = L2
  | [], [], _, _, _ => rfl
  | [], _ :: _, _, h1, h2 => by have := h2.1; rw [show f.at' _ = none from h1] at this; cases this
  | _ :: _, [], _, h1, h2 => by have := h1.1; rw [show f.at' _ = none from h2] at this; cases this
  | a :: L1, b :: L2, it, h1, h2 => by
    obtain ⟨a1, i1, a2, a3⟩ := h1
    obtain ⟨b1, i2, b2, b3⟩ := h2
    rw [a1] at b1
    rw [a2] at b2
    cases b1; cases b2
    rw [yields_unique a3 b3]

/-! ### The iterator on the table -/

/-- The iterator of a table with the events `L` has `R` still to show; with `adv`
the event it is on does not count. -/
def On (t : Memtable) (L : List Event) (it : MIter) (adv : Bool) (R : List Event) : Prop :=
  (it.current = none ∧ adv = false ∧ R = []) ∨
  ∃ c, C30.At (inorder t.tree) it c ∧ R = L.drop (if adv then c + 1 else c)

theorem yields_end {cs : Codecs} {mc : MemCmp} {t : Memtable} {it : MIter} (h : it.current = none) :
    C13.Yields (fns cs mc) (.mem t it) [] := h

theorem yields_at (cs : Codecs) (mc : MemCmp) {base : Nat} {t : Memtable} {L : List Event} (h : Memtable.Inv base t L) :
    ∀ (n c : Nat) (it : MIter), L.length - c ≤ n → C30.At (inorder t.tree) it c →
      C13.Yields (fns cs mc) (.mem t it) (L.drop c)
  | 0, c, it, hn, ha => by
    have := ha.current.2
    rw [h.list] at this
    omega
  | n + 1, c, it, hn, ha => by
    obtain ⟨hc, hlt⟩ := ha.current
    rw [h.list] at hc hlt
    rw [List.drop_eq_getElem_cons hlt]
    rw [List.getElem?_eq_getElem hlt] at hc
    obtain ⟨it', e1, h2⟩ := C30.next_at h ha
    refine ⟨hc, .mem t it', by simp [fns, e1], ?_⟩
    rcases h2 with ⟨h3, h4⟩ | ⟨h3, h4⟩
    · exact yields_at cs mc h n (c + 1) it' (by omega) h4
    · rw [h3, List.drop_length]
      exact h4

/-- What `Pending` asks of the first source. -/
theorem on_pending (cs : Codecs) (mc : MemCmp) {base : Nat} {t : Memtable} {L R : List Event} (h : Memtable.Inv base t L)
    {it : MIter} {adv : Bool} (ho : On t L it adv R) :
    if adv then ∃ a, C13.Yields (fns cs mc) (.mem t it) (a :: R) else C13.Yields (fns cs mc) (.mem t it) R := by
  rcases ho with ⟨h1, rfl, rfl⟩ | ⟨c, h1, rfl⟩
  · exact h1
  · have hy := yields_at cs mc h _ c it (Nat.le_refl _) h1
    have hlt := h1.current.2
    rw [h.list] at hlt
    by_cases ha : adv
    · rw [if_pos ha, if_pos ha]
      exact ⟨L[c], by rw [← List.drop_eq_getElem_cons hlt]; exact hy⟩
    · rw [if_neg ha, if_neg ha]
      exact hy

/-- The iterator after merge_iterator_next: it had `R` to show and now has `R'`. -/
def Stand (t : Memtable) (L : List Event) (it : MIter) (adv : Bool) (R R' : List Event) : Prop :=
  (it.current = none ∧ adv = false ∧ R = [] ∧ R' = []) ∨
  ∃ c, C30.At (inorder t.tree) it c ∧ R = L.drop c ∧ R' = L.drop (if adv then c + 1 else c)

theorem Stand.on {t : Memtable} {L : List Event} {it : MIter} {adv : Bool} {R R' : List Event}
    (h : Stand t L it adv R R') : On t L it adv R' := by
  rcases h with ⟨h1, h2, _, h3⟩ | ⟨c, h1, _, h2⟩
  · exact .inl ⟨h1, h2, h3⟩
  · exact .inr ⟨c, h1, h2⟩

/-- merge_iterator_next when the first source is the table: it has shown what it
had to, and stands at the rest. -/
theorem on_next {cs : Codecs} {mc : MemCmp} {base : Nat} {t : Memtable} {L R : List Event} (h : Memtable.Inv base t L)
    {it : MIter} {adv : Bool} (ho : On t L it adv R) {m m' : Merge Src} {rest : List (MergeRef Src)}
    (hm : m.list = ⟨.mem t it, adv⟩ :: rest) (hn : Merge.next mc (fns cs mc) m = .ok m') {R' : List Event}
    {Rs' : List (List Event)} (hp : C13.Pending (fns cs mc) m'.list (R' :: Rs')) :
    ∃ it' adv' rest', m'.list = ⟨.mem t it', adv'⟩ :: rest' ∧ Stand t L it' adv' R R' := by
  obtain ⟨s, adv', rest', h1, h2⟩ := next_head hm hn
  rw [h2] at hp
  have hp1 := hp.1
  dsimp only at h1 hp1
  -- where the iterator is, without the flag
  have key : ∃ it', s = .mem t it' ∧ On t L it' false R := by
    by_cases ha : adv
    · subst ha
      rw [if_pos rfl] at h1
      simp only [fns] at h1
      rw [Res.bind_eq_ok] at h1
      obtain ⟨it', k1, k2⟩ := h1
      cases k2
      refine ⟨it', rfl, ?_⟩
      rcases ho with ⟨_, hf, _⟩ | ⟨c, g1, g2⟩
      · cases hf
      · rw [if_pos rfl] at g2
        obtain ⟨i2, n1, n2⟩ := C30.next_at h g1
        rw [k1] at n1
        cases n1
        rcases n2 with ⟨n3, n4⟩ | ⟨n3, n4⟩
        · exact .inr ⟨c + 1, n4, by rw [g2]; rfl⟩
        · exact .inl ⟨n4, rfl, by rw [g2, n3, List.drop_length]⟩
    · have ha' : adv = false := by simpa using ha
      rw [if_neg ha] at h1
      cases h1
      rw [ha'] at ho
      exact ⟨it, rfl, ho⟩
  obtain ⟨it', rfl, ho'⟩ := key
  refine ⟨it', adv', rest', h2, ?_⟩
  have hy : C13.Yields (fns cs mc) (.mem t it') R := by
    have := on_pending cs mc h ho'
    simpa using this
  by_cases ha : adv'
  · rw [if_pos ha] at hp1
    obtain ⟨a, hp1⟩ := hp1
    have := yields_unique hy hp1
    rcases ho' with ⟨_, _, g⟩ | ⟨c, g1, g2⟩
    · rw [g] at this; cases this
    · rw [if_neg (by simp)] at g2
      refine .inr ⟨c, g1, g2, ?_⟩
      rw [if_pos ha]
      rw [← List.tail_drop, ← g2, this]
      rfl
  · rw [if_neg ha] at hp1
    have := yields_unique hy hp1
    have ha' : adv' = false := by simpa using ha
    rw [ha', ← this]
    rcases ho' with ⟨k1, k2, k3⟩ | ⟨c, k1, k2⟩
    · exact .inl ⟨k1, rfl, k3, k3⟩
    · exact .inr ⟨c, k1, k2, k2⟩

/-! ### Writing the event the cursor is on -/

theorem put_between {A B : List Event} {d : Event} (hA : ∀ a ∈ A, evCmp a d < 0) (hB : ∀ b ∈ B, evCmp b d > 0) :
    put d (A ++ B) = A ++ d :: B := by
  unfold put
  have a1 : A.filter (fun a => decide (evCmp a d < 0)) = A := List.filter_eq_self.2 fun a ha => by simpa using hA a ha
  have a2 : A.filter (fun a => decide (evCmp a d > 0)) = [] := List.filter_eq_nil_iff.2 fun a ha => by
    have := hA a ha; simp; omega
  have b1 : B.filter (fun a => decide (evCmp a d < 0)) = [] := List.filter_eq_nil_iff.2 fun a ha => by
    have := hB a ha; simp; omega
  have b2 : B.filter (fun a => decide (evCmp a d > 0)) = B := List.filter_eq_self.2 fun a ha => by simpa using hB a ha
  rw [List.filter_append, List.filter_append, a1, a2, b1, b2]
  simp

theorem put_at {A B : List Event} {x d : Event} (hA : ∀ a ∈ A, evCmp a d < 0) (hx : evCmp x d = 0)
    (hB : ∀ b ∈ B, evCmp b d > 0) : put d (A ++ x :: B) = A ++ d :: B := by
  rw [← put_between hA hB]
  unfold put
  simp [List.filter_append, List.filter_cons, hx]

/-- Writing an event with the key the cursor is on.  Either the cursor goes on as
before, or the event is new in the table and comes next. -/
theorem write_on (mc : MemCmp) {base : Nat} {t : Memtable} {L R R' : List Event} (h : Memtable.Inv base t L)
    (h1 : t.countPages ≤ 1) (hit : t.iters = []) {it : MIter} {adv : Bool} (ho : Stand t L it adv R R')
    {e d : Event} (hd : d.pair = e.pair) (hw : Within base d) (hR' : R' = R.filter fun a => a.pair != e.pair)
    (hle : ∀ x ∈ L, x ∈ R ∨ evCmp x e < 0) (hge : ∀ x ∈ R, evCmp e x ≤ 0)
    (hroom : (put d L).length ≤ t.sizePage) :
    L = [] ∨ ∃ t' p it', set mc true t d = .ok (t', p) ∧
      set mc true { t with iters := [it] } d = .ok ({ t' with iters := [it'] }, p) ∧ t'.iters = [] ∧
      (On t' (put d L) it' adv R' ∧ ((∃ x ∈ L, x.pair = e.pair) ∨ R' = []) ∨
       adv = false ∧ On t' (put d L) it' false (d :: R') ∧ (∀ x ∈ L, x.pair ≠ e.pair) ∧ R' ≠ []) := by
  by_cases hL : L = []
  · exact .inl hL
  right
  have h0 : t.countPages ≠ 0 := by
    rw [h.cntp]
    intro h0
    have := List.length_eq_zero_iff.1 h0
    have h2 := h.list
    rw [this] at h2
    exact hL h2.symm
  have hde : ∀ x : Event, evCmp x d = evCmp x e := fun x => by unfold evCmp; rw [hd]
  obtain ⟨lo, p, hin, hlo, hcase⟩ := C30.set_iters mc h hw (.inl h1) h0
  have hl0 : lo = [] := by
    have := h.cntp
    rw [hin] at this
    simp at this
    exact List.length_eq_zero_iff.1 (by omega)
  subst hl0
  have hp : p.events = L := by
    have := h.list
    rw [hin] at this
    simpa [flat] using this
  rcases hcase with ⟨A, x, B, T, hAB, hA, hx, hB, hT, hset⟩ | ⟨A, B, hAB, hA, hB, hset⟩
  · have hLe : L = A ++ x :: B := by rw [← hp, hAB]
    have hxp : x.pair = e.pair := by rw [← hd]; exact evCmp_eq.1 hx
    have hput : put d L = A ++ d :: B := by rw [hLe]; exact put_at hA hx hB
    have hstep : ∀ it', syncIter it ⟨p.pid, A ++ d :: B⟩ none A.length = .ok it' →
        set mc true { t with iters := [it] } d = .ok ({ { t with tree := T } with iters := [it'] }, some x) := by
      intro it' hs
      rw [hset [it], C30.syncAll_one hs]
      rfl
    have hplain : set mc true t d = .ok ({ t with tree := T }, some x) := by
      have := hset []
      have e1 : ({ t with iters := [] } : Memtable) = t := by rw [← hit]
      rw [e1] at this
      rw [this]
      simp [syncAll, ← hit]
    rcases ho with ⟨k1, k2, k3, k4⟩ | ⟨c, k1, k2, k3⟩
    · refine ⟨_, _, it, hplain, hstep it (C30.sync_ended k1), hit, .inl ⟨.inl ⟨k1, k2, k4⟩, .inr k4⟩⟩
    · have hc := k1.current
      rw [h.list] at hc
      have ha : adv = true := by
        cases adv with
        | true => rfl
        | false =>
          exfalso
          rw [if_neg (by simp)] at k3
          have hxL : x ∈ L := by rw [hLe]; simp
          rcases hle x hxL with g | g
          · have : x ∈ R' := by rw [k3, ← k2]; exact g
            rw [hR'] at this
            have := (List.mem_filter.1 this).2
            simp [hxp] at this
          · rw [← hde, hx] at g; omega
      subst ha
      rw [if_pos rfl] at k3
      have hRc : R = L[c] :: R' := by rw [k2, k3, ← List.drop_eq_getElem_cons hc.2]
      have hce : L[c].pair = e.pair := by
        apply Classical.byContradiction
        intro hne
        have e1 : R.filter (fun a => a.pair != e.pair) = L[c] :: R'.filter (fun a => a.pair != e.pair) := by
          rw [hRc, List.filter_cons_of_pos (by simpa using hne)]
        rw [← hR'] at e1
        have h2 := congrArg List.length e1
        have h3 := List.length_filter_le (fun a : Event => a.pair != e.pair) R'
        rw [List.length_cons] at h2
        rw [hR'] at h2 h3
        have h4 := List.length_filter_le (fun a : Event => a.pair != e.pair) R
        have h5 := congrArg List.length hRc
        rw [hR', List.length_cons] at h5
        rw [List.filter_filter] at h2
        simp only [Bool.and_self] at h2
        omega
      have hcA : c = A.length := by
        have hxc : evCmp L[c] x = 0 := evCmp_eq.2 (by rw [hce, hxp])
        have hasc := h.asc
        have hi : L[A.length]? = some x := by rw [hLe]; simp
        obtain ⟨hlt, hi⟩ := List.getElem?_eq_some_iff.1 hi
        have hpw := List.pairwise_iff_getElem.1 hasc
        rcases Nat.lt_trichotomy c A.length with g | g | g
        · have := hpw c A.length hc.2 hlt g
          rw [hi] at this; omega
        · exact g
        · have := hpw A.length c hlt hc.2 g
          rw [hi] at this
          have := evCmp_swap L[c] x
          omega
      rw [hin] at k1
      obtain ⟨it', s1, s2⟩ := C30.sync_replace (lo := []) (e := d) (by simp) hAB k1 (by simp [flat]; omega)
      refine ⟨_, _, it', hplain, hstep it' s1, hit, .inl ⟨.inr ⟨c, ?_, ?_⟩, .inl ⟨x, by rw [hLe]; simp, hxp⟩⟩⟩
      · show C30.At (inorder T) it' c
        rw [hT]; exact s2
      · rw [if_pos rfl, k3, hput, hLe, hcA]
        simp
  · have hLe : L = A ++ B := by rw [← hp, hAB]
    have hput : put d L = A ++ d :: B := by rw [hLe]; exact put_between hA hB
    have hno : ∀ x ∈ L, x.pair ≠ e.pair := by
      intro x hx hxe
      have h0 : evCmp x d = 0 := evCmp_eq.2 (by rw [hxe, hd])
      rw [hLe] at hx
      rcases List.mem_append.1 hx with hx | hx
      · have := hA x hx; omega
      · have := hB x hx; omega
    have hlen : p.events.length < t.sizePage := by
      rw [hput] at hroom
      rw [hAB]
      simp at *
      omega
    rcases hset with ⟨_, T, hT, hset⟩ | ⟨hf, _⟩
    · have hstep : ∀ it', syncIter it ⟨p.pid, A ++ d :: B⟩ none A.length = .ok it' →
          set mc true { t with iters := [it] } d =
            .ok ({ { t with tree := T, count := t.count + 1 } with iters := [it'] }, none) := by
        intro it' hs
        rw [hset [it], C30.syncAll_one hs]
        rfl
      have hplain : set mc true t d = .ok ({ t with tree := T, count := t.count + 1 }, none) := by
        have := hset []
        have e1 : ({ t with iters := [] } : Memtable) = t := by rw [← hit]
        rw [e1] at this
        rw [this]
        simp [syncAll, ← hit]
      rcases ho with ⟨k1, k2, k3, k4⟩ | ⟨c, k1, k2, k3⟩
      · exact ⟨_, _, it, hplain, hstep it (C30.sync_ended k1), hit, .inl ⟨.inl ⟨k1, k2, k4⟩, .inr k4⟩⟩
      · have hc := k1.current
        rw [h.list] at hc
        have hRR : R' = R := by
          rw [hR', List.filter_eq_self]
          intro a ha
          have : a ∈ L := by rw [k2] at ha; exact List.mem_of_mem_drop ha
          simpa using hno a this
        have ha : adv = false := by
          cases adv with
          | false => rfl
          | true =>
            exfalso
            rw [if_pos rfl] at k3
            have := congrArg List.length k2
            have h3 := congrArg List.length k3
            rw [hRR] at h3
            simp at this h3
            have := hc.2
            omega
        subst ha
        have hcA : c = A.length := by
          have hRl : ∀ i (hi : i < L.length), c ≤ i → evCmp L[i] d > 0 := by
            intro i hi hci
            have hm : L[i] ∈ R := by
              rw [k2]
              exact List.mem_drop_iff_getElem.2 ⟨i - c, by omega, by congr 1; omega⟩
            have h1 := hge _ hm
            have h2 := hno L[i] (List.getElem_mem hi)
            have h3 : evCmp e L[i] ≠ 0 := fun hz => h2 (evCmp_eq.1 hz).symm
            have h4 := evCmp_swap L[i] e
            rw [hde]
            omega
          have hPl : ∀ i (hi : i < L.length), i < c → evCmp L[i] d < 0 := by
            intro i hi hci
            rcases hle L[i] (List.getElem_mem hi) with g | g
            · exfalso
              rw [k2] at g
              obtain ⟨j, hj, g⟩ := List.mem_drop_iff_getElem.1 g
              have := List.pairwise_iff_getElem.1 h.asc i (c + j) hi (by omega) (by omega)
              rw [show L[c + j] = L[i] from g, evCmp_refl] at this
              omega
            · rw [hde]; exact g
          rcases Nat.lt_trichotomy c A.length with g | g | g
          · have h1 := hRl c hc.2 (Nat.le_refl _)
            have h2 : L[c] ∈ A := by
              simp only [hLe, List.getElem_append_left g]
              exact List.getElem_mem g
            have := hA _ h2
            omega
          · exact g
          · have hlt : A.length < L.length := by omega
            have h1 := hPl A.length hlt g
            have h2 : L[A.length] ∈ B := by
              simp only [hLe, List.getElem_append_right (Nat.le_refl _)]
              exact List.getElem_mem _
            have := hB _ h2
            omega
        have hRB : R = B := by rw [k2, hLe, hcA]; simp
        rw [hin] at k1
        rcases k1.last with ⟨hlt, _⟩ | ⟨y, hy1, hy2, hy3⟩
        · simp [flat] at hlt
        · have hpos : it.pos = A.length := by simp [flat] at hy3; omega
          have hev : (A ++ d :: B)[it.pos]? = some d := by rw [hpos]; simp
          have hs := C30.sync_same (split := none) (e' := d) hy1 hev
          rw [hpos] at hs
          refine ⟨_, _, _, hplain, hstep _ hs, hit, .inr ⟨rfl, .inr ⟨c, ?_, ?_⟩, hno, ?_⟩⟩
          · show C30.At (inorder T) _ c
            rw [hT]
            exact ⟨[], _, [], d, rfl, rfl, by simp, by simp [flat]; omega⟩
          · rw [if_neg (by simp), hput, hcA, hRR, hRB]
            simp
          · rw [hRR, k2]
            intro hz
            have := List.drop_eq_nil_iff.1 hz
            have := hc.2
            omega
    · omega

/-! ### The open partition -/

/-- The partition was written with `es`, its cursor has the events `R` of the
newest table and `Rs` of the other sources still to show. -/
structure Ready (cs : Codecs) (mc : MemCmp) (sp ss base : Nat) (o : Open) (es R : List Event)
    (Rs : List (List Event)) : Prop where
  reach : C07.Reach sp ss base es o.part.act
  run : ∃ ps, C07.run mc (Memtable.init sp ss) es = .ok (o.part.act, ps)
  tame : C07.Tame sp ss es
  wrote : ∀ e ∈ es, Within base e
  pend : C13.Pending (fns cs mc) o.cursor.list (if o.att then R :: Rs else Rs)
  natt : o.att = false → R = []
  full : o.att = true → C07.table es ≠ []
  on : o.att = true → ∃ it adv rest, o.cursor.list = ⟨.mem o.part.act it, adv⟩ :: rest ∧
    On o.part.act (C07.table es) it adv R
  asc : ∀ L ∈ R :: Rs, Ascending L ∧ ∀ e ∈ L, C13.Window 0 e
  within : ∀ e ∈ (R :: Rs).flatten, Within base e
  le : o.att = true → ∀ x ∈ C07.table es, x ∈ R ∨ ∀ y ∈ (R :: Rs).flatten, evCmp x y < 0

theorem Ready.flat {cs : Codecs} {mc : MemCmp} {sp ss base : Nat} {o : Open} {es R : List Event} {Rs : List (List Event)}
    (h : Ready cs mc sp ss base o es R Rs) : (if o.att then R :: Rs else Rs).flatten = (R :: Rs).flatten := by
  cases ha : o.att with
  | true => rfl
  | false => rw [h.natt ha]; simp

theorem Ready.sub {cs : Codecs} {mc : MemCmp} {sp ss base : Nat} {o : Open} {es R : List Event} {Rs : List (List Event)}
    (h : Ready cs mc sp ss base o es R Rs) : ∀ x ∈ R, x ∈ C07.table es := by
  cases ha : o.att with
  | false => rw [h.natt ha]; simp
  | true =>
    obtain ⟨it, adv, rest, _, h2⟩ := h.on ha
    rcases h2 with ⟨_, _, h3⟩ | ⟨c, _, h3⟩
    · rw [h3]; simp
    · intro x hx; rw [h3] at hx; exact List.mem_of_mem_drop hx

/-- part_cursor_next. -/
theorem ready_next {cs : Codecs} {mc : MemCmp} {sp ss base : Nat} {o : Open} {es R : List Event} {Rs : List (List Event)}
    (h : Ready cs mc sp ss base o es R Rs) :
    ∃ m', Merge.next mc (fns cs mc) o.cursor = .ok m' ∧
      ((R :: Rs).flatten = [] ∧ m'.has = false ∧ Ready cs mc sp ss base { o with cursor := m' } es R Rs ∨
       ∃ e, m'.has = true ∧ m'.at' (fns cs mc) = .ok (some e) ∧
        (R :: Rs).flatten.find? (fun a => a.pair == e.pair) = some e ∧ (∀ x ∈ (R :: Rs).flatten, evCmp e x ≤ 0) ∧
        Ready cs mc sp ss base { o with cursor := m' } es (R.filter fun a => a.pair != e.pair)
          (Rs.map (List.filter fun a => a.pair != e.pair)) ∧
        (o.att = true → ∃ it adv rest, m'.list = ⟨.mem o.part.act it, adv⟩ :: rest ∧
          Stand o.part.act (C07.table es) it adv R (R.filter fun a => a.pair != e.pair))) := by
  have hw : ∀ L ∈ (if o.att then R :: Rs else Rs), Ascending L ∧ ∀ e ∈ L, C13.Window 0 e := by
    intro L hL
    apply h.asc
    cases ha : o.att with
    | true => rw [ha] at hL; exact hL
    | false => rw [ha] at hL; exact List.mem_cons_of_mem _ hL
  obtain ⟨m', e1, hc⟩ := C13.next_spec mc (fns cs mc) h.pend hw
  refine ⟨m', e1, ?_⟩
  rw [h.flat] at hc
  rcases hc with ⟨h1, h2⟩ | ⟨e, h1, h2, h3, h4, h5⟩
  · refine .inl ⟨h1, h2, ?_⟩
    have hp := next_end mc (fns cs mc) h.pend hw e1 h2
    refine ⟨h.reach, h.run, h.tame, h.wrote, hp, h.natt, h.full, fun ha => ?_, h.asc, h.within, h.le⟩
    obtain ⟨it, adv, rest, k1, k2⟩ := h.on ha
    rw [ha] at hp
    obtain ⟨it', adv', rest', k3, k4⟩ := on_next h.reach.inv k2 k1 e1 hp
    exact ⟨it', adv', rest', k3, k4.on⟩
  · have hst : o.att = true → ∃ it adv rest, m'.list = ⟨.mem o.part.act it, adv⟩ :: rest ∧
          Stand o.part.act (C07.table es) it adv R (R.filter fun a => a.pair != e.pair) := by
      intro ha
      obtain ⟨it, adv, rest, k1, k2⟩ := h.on ha
      rw [ha] at h5
      exact on_next h.reach.inv k2 k1 e1 h5
    refine .inr ⟨e, h1, h2, h3, h4, ?_, hst⟩
    have hfl : (R.filter (fun a => a.pair != e.pair) :: Rs.map (List.filter fun a => a.pair != e.pair)).flatten =
        (R :: Rs).flatten.filter fun a => a.pair != e.pair := by
      rw [List.filter_flatten]; rfl
    refine ⟨h.reach, h.run, h.tame, h.wrote, ?_, fun ha => by rw [h.natt ha]; rfl, h.full, fun ha => ?_, ?_, ?_, ?_⟩
    · dsimp only
      cases ha : o.att with
      | true => rw [ha] at h5; exact h5
      | false => rw [ha] at h5; exact h5
    · obtain ⟨it, adv, rest, k1, k2⟩ := hst ha
      exact ⟨it, adv, rest, k1, k2.on⟩
    · intro L hL
      obtain ⟨L0, hL0, rfl⟩ : ∃ L0 ∈ R :: Rs, L0.filter (fun a => a.pair != e.pair) = L := by
        rcases List.mem_cons.1 hL with rfl | hL
        · exact ⟨R, by simp, rfl⟩
        · obtain ⟨L0, g1, g2⟩ := List.mem_map.1 hL
          exact ⟨L0, by simp [g1], g2⟩
      exact ⟨List.Pairwise.filter _ (h.asc L0 hL0).1, fun x hx => (h.asc L0 hL0).2 x (List.mem_filter.1 hx).1⟩
    · intro x hx
      rw [hfl] at hx
      exact h.within x (List.mem_filter.1 hx).1
    · intro ha x hx
      rw [hfl]
      rcases h.le ha x hx with g | g
      · by_cases hxe : x.pair = e.pair
        · right
          intro y hy
          obtain ⟨hy1, hy2⟩ := List.mem_filter.1 hy
          have h6 := h4 y hy1
          have h7 : evCmp e y ≠ 0 := fun hz => by
            have := evCmp_eq.1 hz
            simp [this] at hy2
          rw [evCmp_congr (evCmp_eq.2 hxe)]
          omega
        · exact .inl (List.mem_filter.2 ⟨g, by simpa using hxe⟩)
      · exact .inr fun y hy => g y (List.mem_filter.1 hy).1

theorem put_length_le (L : List Event) (x : Event) : (put x L).length ≤ L.length + 1 := by
  unfold put
  simp only [List.length_append, List.length_cons]
  induction L with
  | nil => simp
  | cons a L ih =>
    by_cases h1 : evCmp a x < 0
    · have h2 : ¬ evCmp a x > 0 := by omega
      simp [h1, h2] at ih ⊢; omega
    · by_cases h2 : evCmp a x > 0
      · simp [h1, h2] at ih ⊢; omega
      · simp [h1, h2] at ih ⊢; omega

theorem tame_snoc {sp ss : Nat} {es : List Event} {d : Event} (h : C07.Tame sp ss es)
    (hl : (C07.table (es ++ [d])).length ≤ sp) : C07.Tame sp ss (es ++ [d]) := by
  intro pre x post hx
  rcases List.eq_nil_or_concat post with hn | ⟨zs, z, hz⟩
  · subst hn
    have := List.append_inj' hx rfl
    obtain ⟨h1, h2⟩ := this
    simp at h2
    subst h1; subst h2
    exact .inl hl
  · have hz : post = zs ++ [z] := by rw [hz]; simp
    rw [hz] at hx
    have hx' : es ++ [d] = (pre ++ x :: zs) ++ [z] := by rw [hx]; simp
    exact h pre x zs (List.append_inj' hx' rfl).1

end Verif.C88
