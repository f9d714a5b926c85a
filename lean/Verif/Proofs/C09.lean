import Verif.Spec.C09
import Verif.Proofs.C07

/-! Lemmas for C09. -/
namespace Verif.C09
open Spec Batch Memtable C07

/-- Write an event to its partition. -/
def put1 (c : Contents) (p : Nat) (e : Event) : Contents := fun q => if q = p then put e (c q) else c q

/-- Remove an event from a partition. -/
def erase1 (c : Contents) (p : Nat) (e : Event) : Contents := fun q => if q = p then erase e (c q) else c q

theorem put_back {L : List Event} (h : Ascending L) {e x : Event} (hx : lookup e L = some x) :
    put x (put e L) = L ∧ evCmp x e = 0 := by
  rcases ascending_split h e with ⟨A, B, rfl, hA, hB⟩ | ⟨A, y, B, rfl, hA, hy, hB⟩
  · rw [lookup_insert hA hB] at hx; cases hx
  · rw [lookup_replace hA hy] at hx
    cases hx
    refine ⟨?_, hy⟩
    rw [put_replace hA hy hB]
    apply put_replace
    · intro a ha; rw [evCmp_congr_right hy]; exact hA a ha
    · rw [evCmp_swap]; omega
    · intro a ha; rw [evCmp_congr_right hy]; exact hB a ha

theorem erase_back {L : List Event} (h : Ascending L) {e : Event} (hx : lookup e L = none) :
    erase e (put e L) = L := by
  rcases ascending_split h e with ⟨A, B, rfl, hA, hB⟩ | ⟨A, y, B, rfl, hA, hy, hB⟩
  · rw [put_insert hA hB]
    exact erase_found hA (evCmp_refl e) hB
  · rw [lookup_replace hA hy] at hx; cases hx

theorem erase_none {L : List Event} {e : Event} (hx : lookup e L = none) : erase e L = L := by
  apply erase_absent
  intro a ha h0
  rw [lookup, List.find?_eq_none] at hx
  have := hx a ha
  simp at this
  exact this h0

theorem put_max {L : List Event} {e : Event} (h : ∀ a ∈ L, evCmp a e ≤ 0) : ∀ a ∈ put e L, evCmp a e ≤ 0 := by
  intro a ha
  rcases mem_put.1 ha with rfl | ⟨h1, _⟩
  · rw [evCmp_refl]; omega
  · exact h a h1

/-- Without memory for a page a write does the same or fails, the latter only for
a new key. -/
theorem set_alloc {mc : MemCmp} {m m' : Memtable} {e : Event} {pv : Option Event}
    (h : Memtable.set mc true m e = .ok (m', pv)) :
    Memtable.set mc false m e = .ok (m', pv) ∨
      (Memtable.set mc false m e = .err "heap_allocate" ∧ pv = none) := by
  by_cases h0 : m.countPages = 0
  · right
    simp only [Memtable.set, h0, if_true, Bool.not_false] at h ⊢
    refine ⟨trivial, ?_⟩
    simp only [Bool.not_true, Bool.false_eq_true, if_false] at h
    rw [Res.bind_eq_ok] at h
    obtain ⟨t, _, h⟩ := h
    simp only [Res.ok.injEq, Prod.mk.injEq] at h
    exact h.2.symm
  · simp only [Memtable.set, h0, if_false] at h ⊢
    rw [Res.bind_eq_ok] at h
    obtain ⟨x, hx, h⟩ := h
    rw [hx, Res.bind_ok]
    rw [Res.bind_eq_ok] at h
    obtain ⟨r, hr, h⟩ := h
    simp only [Memtable.insert] at hr ⊢
    rw [Res.bind_eq_ok] at hr
    obtain ⟨⟨pos, found⟩, hs, hr⟩ := hr
    rw [hs, Res.bind_ok]
    dsimp only at hr ⊢
    by_cases hf : found = true
    · rw [if_pos hf] at hr ⊢
      rw [hr, Res.bind_ok]
      exact .inl h
    · rw [if_neg hf] at hr ⊢
      by_cases hl : x.v.events.length = m.sizePage
      · right
        rw [if_pos hl] at hr ⊢
        simp only [Bool.not_false, if_true]
        refine ⟨rfl, ?_⟩
        have hp : r.prev = none := by
          simp only [Bool.not_true, Bool.false_eq_true, if_false] at hr
          split at hr
          · split at hr
            · cases hr
            · rw [Res.bind_eq_ok] at hr
              obtain ⟨_, _, hr⟩ := hr
              cases hr; rfl
          · split at hr
            · cases hr
            · rw [Res.bind_eq_ok] at hr
              obtain ⟨_, _, hr⟩ := hr
              cases hr; rfl
        split at h
        · cases h; exact hp
        · rw [Res.bind_eq_ok] at h
          obtain ⟨_, _, h⟩ := h
          cases h; exact hp
      · rw [if_neg hl] at hr ⊢
        rw [hr, Res.bind_ok]
        exact .inl h

/-- The tables store the contents; `small` bounds their sizes, and tables that
stay within one page have one page. -/
def Good (sp ss : Nat) (base small : Nat → Nat) (t : Tables) (c : Contents) : Prop :=
  ∀ p, Inv (base p) (t p) (c p) ∧ (t p).iters = [] ∧ (t p).sizePage = sp ∧ (t p).sizeSplit = ss ∧
    (small p ≤ sp → (t p).countPages ≤ 1) ∧ (c p).length ≤ small p

/-- The operation of a key is found on the last page. -/
def Near (sp : Nat) (small : Nat → Nat) (c : Contents) (p : Nat) (e : Event) : Prop :=
  (∀ a ∈ c p, evCmp a e ≤ 0) ∨ small p ≤ sp

theorem Good.routed {sp ss : Nat} {base small : Nat → Nat} {t : Tables} {c : Contents}
    (h : Good sp ss base small t c) {p : Nat} {e : Event} (hn : Near sp small c p e) : Routed (t p) e := by
  rcases hn with hn | hn
  · exact routed_max (h p).1 hn
  · exact routed_single ((h p).2.2.2.2.1 hn) e

theorem good_set {mc : MemCmp} {sp ss : Nat} {base small : Nat → Nat} {t : Tables} {c : Contents}
    (h : Good sp ss base small t c) {p : Nat} {e : Event} (hw : Within (base p) e) (hn : Near sp small c p e)
    (hl : (put e (c p)).length ≤ small p) :
    ∃ m, Memtable.set mc true (t p) e = .ok (m, lookup e (c p)) ∧ Good sp ss base small (t.put p m) (put1 c p e) := by
  obtain ⟨m, hs, hi, hsame, _, hpg⟩ := set_spec mc (h p).1 (h p).2.1 hw (h.routed hn)
  refine ⟨m, hs, ?_⟩
  intro q
  by_cases hq : q = p
  · subst hq
    simp only [Tables.put, put1, if_true]
    obtain ⟨_, _, h3, h4, h5, h6⟩ := h q
    refine ⟨hi, hsame.2.2.2.2, hsame.1.trans h3, hsame.2.1.trans h4, ?_, hl⟩
    intro hsm
    have := h5 hsm
    rw [h3] at hpg
    omega
  · simp only [Tables.put, put1, if_neg hq]
    exact h q

theorem good_unset {mc : MemCmp} {sp ss : Nat} {base small : Nat → Nat} {t : Tables} {c : Contents}
    (h : Good sp ss base small t c) {p : Nat} {e : Event} (hw : Within (base p) e) (hn : Near sp small c p e)
    (hne : c p ≠ []) :
    ∃ m, Memtable.unset mc (t p) e = .ok m ∧ Good sp ss base small (t.put p m) (erase1 c p e) := by
  obtain ⟨m, hs, hi, hsame, hpg⟩ := unset_spec mc (h p).1 (h p).2.1 hw (h.routed hn) hne
  refine ⟨m, hs, ?_⟩
  intro q
  by_cases hq : q = p
  · subst hq
    simp only [Tables.put, erase1, if_true]
    obtain ⟨_, _, h3, h4, h5, h6⟩ := h q
    refine ⟨hi, hsame.2.2.2.2, hsame.1.trans h3, hsame.2.1.trans h4, ?_, ?_⟩
    · intro hsm
      have := h5 hsm
      omega
    · exact Nat.le_trans (List.length_filter_le _ _) h6
  · simp only [Tables.put, erase1, if_neg hq]
    exact h q

/-- What the rollback of one operation does to the contents. -/
inductive OpUndo (sp : Nat) (base small : Nat → Nat) (c : Contents) : LogOp → Contents → Prop
  | noref (e pv) : OpUndo sp base small c ⟨none, e, pv⟩ c
  | prev (p e x) (hw : Within (base p) x) (hn : Near sp small c p x) (hl : (put x (c p)).length ≤ small p) :
      OpUndo sp base small c ⟨some p, e, some x⟩ (put1 c p x)
  | new (p e) (hw : Within (base p) e) (hn : Near sp small c p e) (hne : c p ≠ []) :
      OpUndo sp base small c ⟨some p, some e, none⟩ (erase1 c p e)

/-- What the rollback of a log does to the contents; the operations in the order
of the rollback. -/
inductive Undo (sp : Nat) (base small : Nat → Nat) : Contents → List LogOp → Contents → Prop
  | nil (c) : Undo sp base small c [] c
  | cons {c c1 c0 op ops} (h1 : OpUndo sp base small c op c1) (h2 : Undo sp base small c1 ops c0) :
      Undo sp base small c (op :: ops) c0

theorem undoAll_good {mc : MemCmp} {sp ss : Nat} {base small : Nat → Nat} {c c0 : Contents} {ops : List LogOp}
    (hu : Undo sp base small c ops c0) :
    ∀ t, Good sp ss base small t c → ∃ t', undoAll mc t ops = .ok t' ∧ Good sp ss base small t' c0 := by
  induction hu with
  | nil c => intro t h; exact ⟨t, rfl, h⟩
  | cons h1 _ ih =>
    intro t h
    cases h1 with
    | noref e pv =>
      obtain ⟨t', ht, hg⟩ := ih t h
      exact ⟨t', by simp only [undoAll, undo, Res.bind_ok, ht], hg⟩
    | prev p e x hw hn hl =>
      obtain ⟨m, hs, hg⟩ := good_set (mc := mc) h hw hn hl
      obtain ⟨t', ht, hg⟩ := ih _ hg
      exact ⟨t', by simp only [undoAll, undo, hs, Res.bind_ok, ht], hg⟩
    | new p e hw hn hne =>
      obtain ⟨m, hs, hg⟩ := good_unset (mc := mc) h hw hn hne
      obtain ⟨t', ht, hg⟩ := ih _ hg
      exact ⟨t', by simp only [undoAll, undo, hs, Res.bind_ok, ht], hg⟩

theorem put1_self (c : Contents) (p : Nat) (e : Event) : put1 c p e p = put e (c p) := by simp [put1]

theorem put1_back {c : Contents} {p : Nat} {e x : Event} (h : Ascending (c p)) (hx : lookup e (c p) = some x) :
    put1 (put1 c p e) p x = c := by
  funext q
  by_cases hq : q = p
  · subst hq; simp only [put1, if_true]; exact (put_back h hx).1
  · simp [put1, hq]

theorem erase1_back {c : Contents} {p : Nat} {e : Event} (h : Ascending (c p)) (hx : lookup e (c p) = none) :
    erase1 (put1 c p e) p e = c := by
  funext q
  by_cases hq : q = p
  · subst hq; simp only [put1, erase1, if_true]; exact erase_back h hx
  · simp [put1, erase1, hq]

theorem erase1_none {c : Contents} {p : Nat} {e : Event} (hx : lookup e (c p) = none) : erase1 c p e = c := by
  funext q
  by_cases hq : q = p
  · subst hq; simp only [erase1, if_true]; exact erase_none hx
  · simp [erase1, hq]

theorem peaks_ge (route : Nat → Nat) : ∀ (es : List Event) (c : Contents) (pk : Nat → Nat) (p : Nat),
    pk p ≤ peaks route c pk es p := by
  intro es
  induction es with
  | nil => intros; exact Nat.le_refl _
  | cons e es ih =>
    intro c pk p
    exact Nat.le_trans (Nat.le_max_left (pk p) _) (ih
      (fun p => if p = route e.id then put e (c p) else c p)
      (fun p => max (pk p) ((if p = route e.id then put e (c p) else c p : List Event)).length) p)

/-- What an event to be applied needs. -/
def Fits (sp : Nat) (route base small : Nat → Nat) (c : Contents) : List Arg → Prop
  | [] => True
  | a :: as =>
    (a.event.key.length ≤ 255 → Within (base (route a.event.id)) a.event) ∧
    Near sp small c (route a.event.id) a.event ∧
    (put a.event (c (route a.event.id))).length ≤ small (route a.event.id) ∧
    a.fail ≠ .event ∧ (a.fail = .page → c (route a.event.id) ≠ []) ∧
    Fits sp route base small (put1 c (route a.event.id) a.event) as

theorem fits_of {sp : Nat} {route base : Nat → Nat} : ∀ (as : List Arg) (c : Contents) (pk small : Nat → Nat),
    (∀ a ∈ as, base (route a.event.id) ≤ a.event.id ∧ a.event.id < base (route a.event.id) + 2147483648) →
    (∀ p, peaks route c pk (as.map (·.event)) p ≤ small p) →
    NoNull route c as → Tail sp route small c (as.map (·.event)) → Fits sp route base small c as := by
  intro as
  induction as with
  | nil => intros; trivial
  | cons a as ih =>
    intro c pk small hw hp hn ht
    refine ⟨fun hk => ⟨(hw a (by simp)).1, (hw a (by simp)).2, hk⟩, ht.1, ?_, hn.1, hn.2.1, ?_⟩
    · have h1 := hp (route a.event.id)
      have h2 := peaks_ge route (as.map (·.event))
        (fun p => if p = route a.event.id then put a.event (c p) else c p)
        (fun p => max (pk p) ((if p = route a.event.id then put a.event (c p) else c p : List Event)).length)
        (route a.event.id)
      rw [if_pos rfl] at h2
      refine Nat.le_trans (Nat.le_trans (Nat.le_max_right _ _) h2) h1
    · exact ih _ _ small (fun b hb => hw b (by simp [hb])) hp hn.2.2 ht.2

theorem apply_good {mc : MemCmp} {sp ss : Nat} {route base small : Nat → Nat} {c0 : Contents} :
    ∀ (as : List Arg) (t : Tables) (log : List LogOp) (c : Contents), Good sp ss base small t c →
      Undo sp base small c log.reverse c0 → Fits sp route base small c as →
      ∃ t' log' th c', apply mc route t log as = .ok (t', log', th) ∧ Good sp ss base small t' c' ∧
        Undo sp base small c' log'.reverse c0 ∧
        (th = false → c' = written route c (as.map (·.event))) ∧
        ((∀ a ∈ as, a.event.key.length ≤ 255 ∧ a.fail = .none) → th = false) ∧
        ((∃ a ∈ as, a.event.key.length > 255 ∨ a.fail = .logAdd ∨ a.fail = .lock ∨ a.fail = .event) → th = true) ∧
        (log ≠ [] → log' ≠ []) ∧
        (∀ a as', as = a :: as' → a.event.key.length ≤ 255 → a.fail ≠ .logAdd → log' ≠ []) := by
  intro as
  induction as with
  | nil =>
    intro t log c hg hu _
    exact ⟨t, log, false, c, rfl, hg, hu, fun _ => rfl, fun _ => rfl, by simp, id, by simp⟩
  | cons a as ih =>
    intro t log c hg hu hf
    obtain ⟨hw, hn, hl, hev, hpg, hrest⟩ := hf
    by_cases hk : a.event.key.length > 255
    · refine ⟨t, log, true, c, by simp only [apply, hk, if_true], hg, hu, by simp, ?_, by simp, id, ?_⟩
      · intro h; have := (h a (by simp)).1; omega
      · intro a' as' heq hk'; cases heq; omega
    have hk' : a.event.key.length ≤ 255 := by omega
    -- the write succeeds
    have go : ∀ m, (apply mc route t log (a :: as) =
          apply mc route (t.put (route a.event.id) m)
            (log ++ [⟨some (route a.event.id), some a.event, lookup a.event (c (route a.event.id))⟩]) as) →
        Good sp ss base small (t.put (route a.event.id) m) (put1 c (route a.event.id) a.event) →
        (a.fail ≠ .logAdd ∧ a.fail ≠ .lock ∧ a.fail ≠ .event) →
        ∃ t' log' th c', apply mc route t log (a :: as) = .ok (t', log', th) ∧ Good sp ss base small t' c' ∧
        Undo sp base small c' log'.reverse c0 ∧
        (th = false → c' = written route c ((a :: as).map (·.event))) ∧
        ((∀ b ∈ a :: as, b.event.key.length ≤ 255 ∧ b.fail = .none) → th = false) ∧
        ((∃ b ∈ a :: as, b.event.key.length > 255 ∨ b.fail = .logAdd ∨ b.fail = .lock ∨ b.fail = .event) → th = true) ∧
        (log ≠ [] → log' ≠ []) ∧
        (∀ b as', a :: as = b :: as' → b.event.key.length ≤ 255 → b.fail ≠ .logAdd → log' ≠ []) := by
      intro m hap hgood hfail
      have hasc := (hg (route a.event.id)).1.asc
      have hu' : Undo sp base small (put1 c (route a.event.id) a.event)
          (log ++ [(⟨some (route a.event.id), some a.event, lookup a.event (c (route a.event.id))⟩ : LogOp)]).reverse c0 := by
        rw [List.reverse_append]
        refine Undo.cons (c1 := c) ?_ hu
        cases hx : lookup a.event (c (route a.event.id)) with
        | none =>
          have := OpUndo.new (sp := sp) (base := base) (small := small)
            (c := put1 c (route a.event.id) a.event) (route a.event.id) a.event (hw hk') (by
              rcases hn with hn | hn
              · left; rw [put1_self]; exact put_max hn
              · exact .inr hn) (by
              rw [put1_self]; intro h
              have := congrArg List.length h
              simp [put] at this)
          rw [erase1_back hasc hx] at this
          exact this
        | some x =>
          have hxe := (put_back hasc hx).2
          have hmem := (lookup_some_mem hx).1
          have := OpUndo.prev (sp := sp) (base := base) (small := small)
            (c := put1 c (route a.event.id) a.event) (route a.event.id) (some a.event) x
            ((hg (route a.event.id)).1.within x hmem) (by
              rcases hn with hn | hn
              · left; rw [put1_self]
                intro b hb
                rw [evCmp_congr_right hxe]
                exact put_max hn b hb
              · exact .inr hn) (by
              rw [put1_self, (put_back hasc hx).1]
              exact (hg (route a.event.id)).2.2.2.2.2)
          rw [put1_back hasc hx] at this
          exact this
      obtain ⟨t', log', th, c', h1, h2, h3, h4, h5, h6, h7, _⟩ := ih _ _ _ hgood hu' hrest
      refine ⟨t', log', th, c', hap.trans h1, h2, h3, ?_, ?_, ?_, fun _ => h7 (by simp), fun _ _ _ _ _ => h7 (by simp)⟩
      · intro ht; rw [h4 ht]; rfl
      · intro h; exact h5 (fun b hb => h b (by simp [hb]))
      · rintro ⟨b, hb, hbad⟩
        apply h6
        rcases List.mem_cons.1 hb with rfl | hb
        · exfalso
          rcases hbad with hbad | hbad | hbad | hbad
          · omega
          · exact hfail.1 hbad
          · exact hfail.2.1 hbad
          · exact hfail.2.2 hbad
        · exact ⟨b, hb, hbad⟩
    obtain ⟨m, hs, hgood⟩ := good_set (mc := mc) hg (hw hk') hn hl
    cases hfl : a.fail with
    | none =>
      refine go m ?_ hgood ⟨by simp [hfl], by simp [hfl], by simp [hfl]⟩
      have hb : (Fail.none != Fail.page) = true := rfl
      simp only [apply, hk, if_false, hfl, hb, hs]
    | logAdd =>
      refine ⟨t, log, true, c, by simp only [apply, hk, if_false, hfl], hg, hu, by simp, ?_, by simp, id, ?_⟩
      · intro h; have := (h a (by simp)).2; rw [hfl] at this; cases this
      · intro b as' heq _ h; cases heq; exact absurd hfl h
    | lock =>
      refine ⟨t, log ++ [⟨none, none, none⟩], true, c, by simp only [apply, hk, if_false, hfl], hg, ?_, by simp, ?_,
        by simp, by simp, by simp⟩
      · rw [List.reverse_append]; exact .cons (.noref none none) hu
      · intro h; have := (h a (by simp)).2; rw [hfl] at this; cases this
    | event => exact absurd hfl hev
    | page =>
      have hb : (Fail.page != Fail.page) = false := rfl
      rcases set_alloc hs with h | ⟨h, hpv⟩
      · refine go m ?_ hgood ⟨by simp [hfl], by simp [hfl], by simp [hfl]⟩
        simp only [apply, hk, if_false, hfl, hb, h]
      · refine ⟨t, log ++ [⟨some (route a.event.id), some a.event, none⟩], true, c,
          by simp only [apply, hk, if_false, hfl, hb, h], hg, ?_, by simp, ?_, by simp, by simp, by simp⟩
        · rw [List.reverse_append]
          refine Undo.cons (c1 := c) ?_ hu
          have := OpUndo.new (sp := sp) (base := base) (small := small) (c := c) (route a.event.id) a.event
            (hw hk') hn (hpg hfl)
          rw [erase1_none hpv] at this
          exact this
        · intro h; have := (h a (by simp)).2; rw [hfl] at this; cases this

theorem good_commit {sp ss : Nat} {base small : Nat → Nat} {c : Contents} {lsn : Nat} :
    ∀ (log : List LogOp) (t : Tables), Good sp ss base small t c → Good sp ss base small (commit lsn t log) c := by
  intro log
  induction log with
  | nil => intro t h; exact h
  | cons op ops ih =>
    intro t h
    unfold commit
    cases op.ref with
    | none => exact ih t h
    | some p =>
      refine ih _ ?_
      intro q
      by_cases hq : q = p
      · subst hq
        simp only [Tables.put, if_true]
        obtain ⟨h1, h2⟩ := h q
        exact ⟨⟨h1.valid, h1.page, h1.pids, h1.list, h1.asc, h1.within, h1.cntp, h1.cnt, h1.cfg⟩, h2⟩
      · simp only [Tables.put, if_neg hq]; exact h q

theorem Good.shows {mc : MemCmp} {sp ss : Nat} {base small : Nat → Nat} {t : Tables} {c : Contents}
    (h : Good sp ss base small t c) : Shows mc t c := fun p => scan_all mc (h p).1

theorem Good.grow {sp ss : Nat} {base small small' : Nat → Nat} {t : Tables} {c : Contents}
    (h : Good sp ss base small t c) (hs : ∀ p, small p ≤ small' p) : Good sp ss base small' t c := by
  intro p
  obtain ⟨h1, h2, h3, h4, h5, h6⟩ := h p
  exact ⟨h1, h2, h3, h4, fun h => h5 (Nat.le_trans (hs p) h), Nat.le_trans h6 (hs p)⟩

theorem write_good {mc : MemCmp} {sp ss : Nat} {route base pk : Nat → Nat} {t : Tables} {c : Contents} {b : Batch}
    (hg : Good sp ss base pk t c)
    (hw : ∀ a ∈ b.args, base (route a.event.id) ≤ a.event.id ∧ a.event.id < base (route a.event.id) + 2147483648)
    (hst : Starts b) (hn : NoNull route c b.args)
    (ht : Tail sp route (peaks route c pk (b.args.map (·.event))) c (b.args.map (·.event))) :
    ∃ t' failed, write mc route t b = .ok (t', failed) ∧
      Good sp ss base (peaks route c pk (b.args.map (·.event))) t' (after route c b failed) ∧
      (Clean b → failed = false) ∧ (Doomed b → failed = true) := by
  have hg' := hg.grow (peaks_ge route (b.args.map (·.event)) c pk)
  obtain ⟨t', log, th, c', h1, h2, h3, h4, h5, h6, _, h8⟩ := apply_good (mc := mc) (c0 := c) b.args t [] c hg'
    (.nil c) (fits_of b.args c pk _ hw (fun p => Nat.le_refl _) hn ht)
  by_cases hf : (th || b.logFails) = true
  · have hlog : log ≠ [] := by
      unfold Starts at hst
      cases hb : b.args with
      | nil =>
        rw [hb] at hst h5
        have := h5 (by simp)
        simp only at hst
        rw [this, hst] at hf
        cases hf
      | cons a as =>
        rw [hb] at hst
        exact h8 a as hb hst.1 hst.2
    obtain ⟨t'', hu, hg''⟩ := undoAll_good (mc := mc) h3 t' h2
    refine ⟨t'', true, ?_, hg'', ?_, fun _ => rfl⟩
    · simp only [write, h1, Res.bind_ok, hf, if_true]
      have : rollback mc t' log = undoAll mc t' log.reverse := by
        cases log with
        | nil => exact absurd rfl hlog
        | cons => rfl
      rw [this, hu, Res.bind_ok]
    · intro hc
      have := h5 hc.1
      rw [this, hc.2] at hf
      cases hf
  · have hth : th = false := by cases th <;> simp_all
    have hlf : b.logFails = false := by cases hx : b.logFails <;> simp_all
    refine ⟨commit b.lsn t' log, false, ?_, ?_, fun _ => rfl, ?_⟩
    · simp only [write, h1, Res.bind_ok]
      rw [if_neg hf]
    · have := good_commit (lsn := b.lsn) log t' h2
      rw [h4 hth] at this
      exact this
    · rintro (hd | hd)
      · have := h6 hd; rw [hth] at this; cases this
      · rw [hlf] at hd; cases hd

theorem allAtomic {mc : MemCmp} {sp ss : Nat} {route base : Nat → Nat} : ∀ (bs : List Batch) (t : Tables) (c : Contents)
    (pk : Nat → Nat), Good sp ss base pk t c →
    (∀ b ∈ bs, ∀ a ∈ b.args, base (route a.event.id) ≤ a.event.id ∧
      a.event.id < base (route a.event.id) + 2147483648) →
    Allowed sp route c pk bs → AllAtomic mc route t c bs := by
  intro bs
  induction bs with
  | nil => intros; trivial
  | cons b bs ih =>
    intro t c pk hg hw ha
    obtain ⟨h1, h2, h3, h4⟩ := ha
    obtain ⟨t', failed, hwr, hg', hcl, hdo⟩ := write_good (mc := mc) hg (hw b (by simp)) h1 h2 h3
    refine ⟨⟨t', failed, hwr, hg'.shows, hcl, hdo⟩, ?_⟩
    intro t2 f2 h
    rw [hwr] at h
    cases h
    exact ih t' _ _ hg' (fun x hx => hw x (by simp [hx])) (h4 failed)

theorem good_init {sp ss : Nat} (h1 : 0 < ss) (h2 : ss < sp) (base : Nat → Nat) :
    Good sp ss base (fun _ => 0) (fun _ => Memtable.init sp ss) (fun _ => []) := by
  intro p
  exact ⟨inv_init _ h1 h2, rfl, rfl, rfl, fun _ => Nat.zero_le _, Nat.le_refl _⟩

end Verif.C09
