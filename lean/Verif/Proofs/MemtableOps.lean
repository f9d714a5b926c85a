import Verif.Proofs.Memtable

/-! Writing, removing and scanning a memtable. -/
namespace Verif.Memtable
open Rb Spec

theorem insertIdx_append {α : Type} (A B : List α) (e : α) :
    (A ++ B).insertIdx A.length e = A ++ e :: B := by
  induction A with
  | nil => simp
  | cons a A ih => simp [ih]

theorem set_append {α : Type} (A B : List α) (x e : α) :
    (A ++ x :: B).set A.length e = A ++ e :: B := by
  induction A with
  | nil => simp
  | cons a A ih => simp [ih]

theorem eraseIdx_append {α : Type} (A B : List α) (x : α) :
    (A ++ x :: B).eraseIdx A.length = A ++ B := by
  induction A with
  | nil => simp
  | cons a A ih => simp [ih]

theorem getElem?_append_cons {α : Type} (A B : List α) (x : α) :
    (A ++ x :: B)[A.length]? = some x := by simp

/-- What memtable_insert does to a page, without attached iterators. -/
theorem insert_spec (mc : MemCmp) {base sp ss pid : Nat} {p : Page} {e : Event}
    (hs : Ascending p.events) (hw : ∀ a ∈ p.events, Within base a) (hk : Within base e)
    (hne : p.events ≠ []) (hlen : p.events.length ≤ sp) (h1 : 0 < ss) (h2 : ss < sp) :
    (∃ l, insert mc sp ss true pid [] p e = .ok ⟨⟨p.pid, l⟩, none, lookup e p.events, []⟩ ∧
      l = put e p.events ∧ l ≠ [] ∧ l.length ≤ sp ∧ p.events.length ≤ l.length ∧
      (lookup e p.events = none → l.length = p.events.length + 1) ∧
      (lookup e p.events ≠ none → l.length = p.events.length)) ∨
    (∃ l r, insert mc sp ss true pid [] p e = .ok ⟨⟨p.pid, l⟩, some ⟨pid, r⟩, none, []⟩ ∧
      lookup e p.events = none ∧ p.events.length = sp ∧
      l ++ r = put e p.events ∧ l ≠ [] ∧ r ≠ [] ∧ l.length ≤ sp ∧ r.length ≤ sp ∧
      sp - ss ≤ r.length) := by
  rcases search_spec mc hs hw hk hne with ⟨A, B, hAB, hA, hB, hsr⟩ | ⟨A, x, B, hAB, hA, hx, hB, hsr⟩
  · have hput : put e p.events = A ++ e :: B := by rw [hAB]; exact put_insert hA hB
    have hlk : lookup e p.events = none := by rw [hAB]; exact lookup_insert hA hB
    by_cases hfull : p.events.length = sp
    · right
      have hr : (p.events.drop ss).take (sp - ss) = p.events.drop ss := by
        apply List.take_of_length_le; simp; omega
      have hlA : A.length + B.length = sp := by rw [← hfull, hAB]; simp
      have hlt : (p.events.take ss).length = ss := by simp; omega
      simp only [insert, hsr, Res.bind_ok, hfull, if_true, Bool.not_true, Bool.false_eq_true,
        if_false, hr, hlt]
      have hdl : (p.events.drop ss).length = sp - ss := by simp; omega
      by_cases hge : A.length ≥ ss
      · rw [if_pos hge, if_neg (by rw [hdl]; omega)]
        have e1 : p.events.take ss = A.take ss := by
          rw [hAB, List.take_append_of_le_length hge]
        have e2 : (p.events.drop ss).insertIdx (A.length - ss) e = A.drop ss ++ e :: B := by
          rw [hAB, List.drop_append_of_le_length hge]
          have : A.length - ss = (A.drop ss).length := by simp
          rw [this, insertIdx_append]
        rw [e1, e2]
        refine ⟨A.take ss, A.drop ss ++ e :: B, rfl, hlk, trivial, ?_, ?_, by simp, ?_, ?_, ?_⟩
        · rw [hput, ← List.append_assoc, List.take_append_drop]
        · intro hn
          have := congrArg List.length hn
          rw [List.length_take, List.length_nil] at this; omega
        · simp; omega
        · simp; omega
        · simp; omega
      · rw [if_neg hge, if_neg (by omega)]
        have e1 : (p.events.take ss).insertIdx A.length e = A ++ e :: B.take (ss - A.length) := by
          rw [hAB, List.take_append, List.take_of_length_le (by omega), insertIdx_append]
        have e2 : p.events.drop ss = B.drop (ss - A.length) := by
          rw [hAB, List.drop_append, List.drop_of_length_le (by omega)]; simp
        rw [e1, e2]
        refine ⟨A ++ e :: B.take (ss - A.length), B.drop (ss - A.length), rfl, hlk, trivial, ?_,
          by simp, ?_, ?_, ?_, ?_⟩
        · rw [hput]; simp
        · intro hn
          have := congrArg List.length hn; simp at this; omega
        · simp; omega
        · simp; omega
        · simp; omega
    · left
      simp only [insert, hsr, Res.bind_ok, hfull, if_false, Bool.false_eq_true]
      rw [if_neg (by omega)]
      refine ⟨A ++ e :: B, ?_, hput.symm, by simp, ?_, ?_, ?_, ?_⟩
      · rw [hlk, hAB, insertIdx_append]; rfl
      · rw [hAB] at hlen hfull; simp at hlen hfull ⊢; omega
      · rw [hAB]; simp
      · intro _; rw [hAB]; simp; omega
      · intro hc; exact absurd hlk hc
  · left
    have hlk : lookup e p.events = some x := by rw [hAB]; exact lookup_replace hA hx
    simp only [insert, hsr, Res.bind_ok, if_true]
    refine ⟨A ++ e :: B, ?_, ?_, by simp, ?_, ?_, ?_, ?_⟩
    · rw [hlk, hAB, set_append, getElem?_append_cons]; rfl
    · rw [hAB]; exact (put_replace hA hx hB).symm
    · rw [hAB] at hlen; simpa using hlen
    · rw [hAB]; simp
    · intro hc; rw [hlk] at hc; simp at hc
    · intro _; rw [hAB]; simp

theorem put_append_left {A B : List Event} {e : Event} (hA : ∀ a ∈ A, evCmp a e < 0) :
    put e (A ++ B) = A ++ put e B := by
  simp only [put, List.filter_append]
  rw [filter_all (l := A) (by simpa using hA),
      filter_none (l := A) (by intro a ha; have := hA a ha; simp; omega)]
  simp

theorem lookup_append_left {A B : List Event} {e : Event} (hA : ∀ a ∈ A, evCmp a e < 0) :
    lookup e (A ++ B) = lookup e B := by
  simp only [lookup, List.find?_append]
  have : A.find? (fun a => evCmp a e == 0) = none := by
    rw [List.find?_eq_none]; intro a ha; have := hA a ha; simp; omega
  simp [this]

theorem within_put {base : Nat} {L : List Event} {e : Event} (h : ∀ a ∈ L, Within base a)
    (he : Within base e) : ∀ a ∈ put e L, Within base a := by
  intro a ha
  rcases mem_put.1 ha with rfl | ⟨h1, _⟩
  · exact he
  · exact h a h1

/-- Fields a write does not touch. -/
def Same (m m' : Memtable) : Prop :=
  m'.sizePage = m.sizePage ∧ m'.sizeSplit = m.sizeSplit ∧ m'.lsnMin = m.lsnMin ∧
    m'.lsnMax = m.lsnMax ∧ m'.iters = []

/-- memtable_set on a table without attached iterators. -/
theorem set_spec (mc : MemCmp) {base : Nat} {m : Memtable} {L : List Event} (h : Inv base m L)
    (hit : m.iters = []) {e : Event} (hk : Within base e) (hr : Routed m e) :
    ∃ m', set mc true m e = .ok (m', lookup e L) ∧ Inv base m' (put e L) ∧ Same m m' ∧
      (LastFull m → LastFull m') ∧
      (m'.countPages ≤ 1 ∨ m.countPages ≥ 2 ∨ (put e L).length = m.sizePage + 1) := by
  by_cases h0 : m.countPages = 0
  · have hin : inorder m.tree = [] := List.length_eq_zero_iff.1 (by rw [← h.cntp, h0])
    have hL : L = [] := by rw [← h.list, hin]; rfl
    subst hL
    have hc := h.cnt
    simp at hc
    refine ⟨{ m with
        tree := .node .black .nil ⟨m.nextPid, [e]⟩ .nil, countPages := 1,
        count := m.count + 1, nextPid := m.nextPid + 1 }, ?_, ?_, ⟨rfl, rfl, rfl, rfl, hit⟩, ?_, .inl (by simp)⟩
    · simp only [set, h0, if_true, Bool.not_true, Bool.false_eq_true, if_false]; rfl
    · refine ⟨⟨1, .black .nil .nil⟩, ?_, by simp, rfl, ?_, ?_, rfl, ?_, h.cfg⟩
      · have := h.cfg
        simp; omega
      · simp [put, Ascending]
      · simp [put]; exact hk
      · simp [put, hc]
    · intro _ q p r hq
      have := congrArg List.length hq
      simp at this
  · obtain ⟨x, hx, hxt, hin, hxhi, hxr, hxne, hlo⟩ := searchPage_spec mc h hk hr h0
    obtain ⟨hL, pasc, pw, plo, _⟩ := h.page_split (lo := x.lo) (hi := []) (p := x.v) hin
    simp only [flat_nil, List.append_nil] at hL
    have hpx := h.page x.v (by rw [hin]; simp)
    have hput : put e L = flat x.lo ++ put e x.v.events := by
      rw [hL]; exact put_append_left hlo
    have hlk : lookup e L = lookup e x.v.events := by
      rw [hL]; exact lookup_append_left hlo
    have hpa := put_ascending h.asc e
    have hpw := within_put h.within hk
    have hpids := h.pids
    rw [hin] at hpids
    have hpp := List.pairwise_append.1 hpids
    rcases insert_spec mc (pid := m.nextPid) pasc pw hk hxne hpx.2.1 h.cfg.1 h.cfg.2 with
      ⟨l, hi, hl, hlne, hllen, hlge, hc1, hc2⟩ | ⟨l, r, hi, hlk', hfull, hlr, hlne, hrne, hllen, hrlen, hrge⟩
    · -- no split
      have hval : Valid ({ x with v := ⟨x.v.pid, l⟩ } : Loc Page).tree :=
        valid_setV (by rw [hxt]; exact h.valid) _
      have hin' : inorder ({ x with v := ⟨x.v.pid, l⟩ } : Loc Page).tree = x.lo ++ [⟨x.v.pid, l⟩] := by
        rw [Loc.inorder_eq]
        have : ({ x with v := ⟨x.v.pid, l⟩ } : Loc Page).hi = x.hi := rfl
        rw [this, hxhi]; rfl
      refine ⟨{ m with
          tree := ({ x with v := ⟨x.v.pid, l⟩ } : Loc Page).tree,
          count := if (lookup e x.v.events).isSome then m.count else m.count + 1,
          iters := [] }, ?_, ?_, ⟨rfl, rfl, rfl, rfl, rfl⟩, ?_, ?_⟩
      · simp only [set, h0, if_false, hx, Res.bind_ok, hit, hi, hlk]
      · refine ⟨hval, ?_, ?_, ?_, hpa, hpw, ?_, ?_, h.cfg⟩
        · intro p hp
          rw [hin'] at hp
          simp at hp
          rcases hp with hp | rfl
          · exact h.page p (by rw [hin]; simp [hp])
          · exact ⟨hlne, hllen, hpx.2.2⟩
        · rw [hin']
          refine List.pairwise_append.2 ⟨hpp.1, by simp, ?_⟩
          intro a ha b hb
          simp at hb; subst hb
          exact hpp.2.2 a ha x.v (by simp)
        · rw [hin', hput]; simp [hl]
        · rw [hin']
          have := h.cntp; rw [hin] at this; simpa using this
        · rw [hput]
          have := h.cnt; rw [hL] at this
          rw [List.length_append] at this ⊢
          rw [← hl]
          cases hlk2 : lookup e x.v.events with
          | none => have := hc1 hlk2; simp; omega
          | some y => have := hc2 (by rw [hlk2]; simp); simp; omega
      · intro hlast q p' r' hq
        rw [hin'] at hq
        have h3 : x.lo = q :: r' := by
          have := List.append_inj_left' (s₁ := x.lo) (s₂ := q :: r') (t₁ := [⟨x.v.pid, l⟩]) (t₂ := [p']) hq rfl
          exact this
        have h4 : p' = ⟨x.v.pid, l⟩ := by
          have := List.append_inj_right' (s₁ := x.lo) (s₂ := q :: r') (t₁ := [⟨x.v.pid, l⟩]) (t₂ := [p']) hq rfl
          simpa using this.symm
        subst h4
        have := hlast q x.v r' (by rw [hin, h3])
        simp; omega
      · by_cases h2 : m.countPages ≥ 2
        · exact .inr (.inl h2)
        · left; simp; omega
    · -- split
      have hval : Valid ({ x with v := ⟨x.v.pid, l⟩ } : Loc Page).tree :=
        valid_setV (by rw [hxt]; exact h.valid) _
      obtain ⟨t', hst, hval'⟩ := set_right_valid (x := ({ x with v := ⟨x.v.pid, l⟩ } : Loc Page))
        (prel := -1) (v := ⟨m.nextPid, r⟩) hval hxr (by omega)
      have hin' : inorder t' = x.lo ++ [⟨x.v.pid, l⟩, ⟨m.nextPid, r⟩] := by
        rw [set_right_inorder (by omega) hst]
        have : after x.path = [] := by
          have := hxhi; simp only [Loc.hi, List.append_eq_nil_iff] at this; exact this.2
        simp [this, Loc.lo]
      refine ⟨{ m with
          tree := t', countPages := m.countPages + 1,
          count := m.count + 1, nextPid := m.nextPid + 1,
          iters := [] }, ?_, ?_, ⟨rfl, rfl, rfl, rfl, rfl⟩, ?_, ?_⟩
      · simp only [set, h0, if_false, hx, Res.bind_ok, hit, hi, hst, hlk, hlk']
        rfl
      · refine ⟨hval', ?_, ?_, ?_, hpa, hpw, ?_, ?_, h.cfg⟩
        · intro p hp
          rw [hin'] at hp
          simp at hp
          rcases hp with hp | rfl | rfl
          · have := h.page p (by rw [hin]; simp [hp])
            exact ⟨this.1, this.2.1, by simp; omega⟩
          · exact ⟨hlne, hllen, by simp; omega⟩
          · exact ⟨hrne, hrlen, by simp⟩
        · rw [hin']
          refine List.pairwise_append.2 ⟨hpp.1, ?_, ?_⟩
          · simp; omega
          · intro a ha b hb
            simp at hb
            rcases hb with rfl | rfl
            · exact hpp.2.2 a ha x.v (by simp)
            · have := h.page a (by rw [hin]; simp [ha])
              simp; omega
        · rw [hin', hput]; simp [hlr]
        · rw [hin']
          have := h.cntp; rw [hin] at this; simp at this ⊢; omega
        · have hc := h.cnt
          rw [hput]
          rw [hL] at hc
          rw [List.length_append] at hc ⊢
          have : (put e x.v.events).length = x.v.events.length + 1 := by
            rcases ascending_split pasc e with ⟨A, B, hAB, hA, hB⟩ | ⟨A, y, B, hAB, hA, hy, hB⟩
            · rw [hAB, put_insert hA hB]; simp; omega
            · rw [hAB, lookup_replace hA hy] at hlk'; simp at hlk'
          simp; omega
      · intro _ q p' r' hq
        rw [hin'] at hq
        have h4 : p' = ⟨m.nextPid, r⟩ := by
          have := List.append_inj_right' (s₁ := x.lo ++ [⟨x.v.pid, l⟩]) (s₂ := q :: r')
            (t₁ := [⟨m.nextPid, r⟩]) (t₂ := [p']) (by simpa using hq) rfl
          simpa using this.symm
        subst h4
        exact hrge
      · by_cases h2 : m.countPages ≥ 2
        · exact .inr (.inl h2)
        · right; right
          have h1 : m.countPages = 1 := by omega
          have hlen := h.cntp
          rw [hin] at hlen
          have hxlo : x.lo = [] := by
            apply List.length_eq_zero_iff.1; simp at hlen; omega
          rw [hput, hxlo]
          rcases ascending_split pasc e with ⟨A, B, hAB, hA, hB⟩ | ⟨A, y, B, hAB, hA, hy, hB⟩
          · rw [hAB, put_insert hA hB]; rw [hAB] at hfull; simp at hfull ⊢; omega
          · rw [hAB, lookup_replace hA hy] at hlk'; simp at hlk'

/-! ### Scanning -/

theorem pid_unique {A B C D : List Page} {x y : Page}
    (hp : (A ++ x :: B).Pairwise (fun p q => p.pid ≠ q.pid))
    (he : A ++ x :: B = C ++ y :: D) (hxy : x.pid = y.pid) : A = C ∧ x = y ∧ B = D := by
  induction A generalizing C with
  | nil =>
    cases C with
    | nil => simp at he; exact ⟨rfl, he.1, he.2⟩
    | cons c C =>
      simp at he
      obtain ⟨rfl, rfl⟩ := he
      simp at hp
      exact absurd hxy (hp.1 y (.inr (.inl rfl)))
  | cons a A ih =>
    cases C with
    | nil =>
      simp at he
      obtain ⟨rfl, rfl⟩ := he
      simp at hp
      exact absurd hxy.symm (hp.1 x (.inr (.inl rfl)))
    | cons c C =>
      simp at he
      obtain ⟨rfl, he⟩ := he
      simp at hp
      obtain ⟨h1, h2, h3⟩ := ih (by simpa using hp.2) he
      exact ⟨by rw [h1], h2, h3⟩

/-- Reading an iterator to the end returns the rest of its page and all later pages. -/
theorem iterAll_spec {m : Memtable} (hpage : ∀ p ∈ inorder m.tree, p.events ≠ [])
    (hpids : (inorder m.tree).Pairwise (fun p q => p.pid ≠ q.pid)) :
    ∀ fuel (x : Loc Page) (pos : Nat) (e : Event), x.tree = m.tree → x.v.events[pos]? = some e →
      (x.v.events.drop pos ++ flat x.hi).length ≤ fuel →
      iterAll m fuel ⟨some e, some x.v.pid, pos⟩ = .ok (x.v.events.drop pos ++ flat x.hi) := by
  intro fuel
  induction fuel with
  | zero =>
    intro x pos e _ he hlen
    have : pos < x.v.events.length := by
      rcases Nat.lt_or_ge pos x.v.events.length with h | h
      · exact h
      · rw [List.getElem?_eq_none h] at he; simp at he
    simp at hlen; omega
  | succ n ih =>
    intro x pos e hx he hlen
    have hlt : pos < x.v.events.length := by
      rcases Nat.lt_or_ge pos x.v.events.length with h | h
      · exact h
      · rw [List.getElem?_eq_none h] at he; simp at he
    rw [List.getElem?_eq_getElem hlt] at he
    simp at he
    have hin : inorder m.tree = x.lo ++ x.v :: x.hi := by rw [← hx, x.inorder_eq]
    have hloc : ∃ y : Loc Page, locate (fun p => p.pid == x.v.pid) m.tree [] = some y ∧
        y.tree = m.tree ∧ y.lo = x.lo ∧ y.v = x.v ∧ y.hi = x.hi := by
      cases hl : locate (fun p : Page => p.pid == x.v.pid) m.tree [] with
      | none =>
        have := locate_none hl x.v (by rw [hin]; simp)
        simp at this
      | some y =>
        obtain ⟨h1, h2, _⟩ := locate_some hl
        have h1 : y.tree = m.tree := h1
        have hin2 : inorder m.tree = y.lo ++ y.v :: y.hi := by rw [← h1, y.inorder_eq]
        have := pid_unique (by rw [← hin2]; exact hpids) (hin2.symm.trans hin) (by simpa using h2)
        exact ⟨y, rfl, h1, this⟩
    obtain ⟨y, hl, hyt, hylo, hyv, hyhi⟩ := hloc
    simp only [iterAll, iterNext, hl, hyv]
    have hdrop : x.v.events.drop pos = e :: x.v.events.drop (pos + 1) := by
      rw [List.drop_eq_getElem_cons hlt, he]
    rw [hdrop] at hlen ⊢
    cases hnx : x.v.events[pos + 1]? with
    | some e' =>
      simp only [Res.bind_ok]
      rw [ih x (pos + 1) e' hx hnx (by simp at hlen ⊢; omega)]
      simp
    | none =>
      have hnil : x.v.events.drop (pos + 1) = [] := by
        apply List.drop_of_length_le
        exact List.getElem?_eq_none_iff.1 hnx
      cases hny : Rb.next y with
      | none =>
        have := next_none hny
        rw [hyhi] at this
        simp only [Res.bind_ok]
        rw [hnil, this]
        cases n <;> simp [iterAll]
      | some z =>
        obtain ⟨z1, z2⟩ := next_some hny
        have hzt : z.tree = m.tree := z1.trans hyt
        have e1 := z.inorder_eq
        rw [hzt, hin, z2, hylo, hyv] at e1
        simp at e1
        have hzne := hpage z.v (by rw [hin, e1]; simp)
        obtain ⟨f, fs, hf⟩ := List.exists_cons_of_ne_nil hzne
        have hzf : z.v.events[0]? = some f := by rw [hf]; rfl
        have := ih z 0 f hzt hzf (by
          rw [e1] at hlen
          simp at hlen ⊢; omega)
        simp only [Res.bind_ok]
        split
        · next g gs hg =>
          have hg := hf.symm.trans hg
          simp at hg
          rw [← hg.1]
          simp only [Res.bind_ok, this]
          rw [e1, hnil]
          simp
        · next hg => exact absurd hg hzne

/-- A full scan returns the whole list. -/
theorem scan_all (mc : MemCmp) {base : Nat} {m : Memtable} {L : List Event} (h : Inv base m L) :
    scan mc m none = .ok L := by
  have hpage : ∀ p ∈ inorder m.tree, p.events ≠ [] := fun p hp => (h.page p hp).1
  by_cases h0 : m.count = 0
  · have : L = [] := by apply List.length_eq_zero_iff.1; rw [← h.cnt, h0]
    subst this
    simp [scan, iterOpen, h0, iterAll]
  · have hL : L ≠ [] := by intro hn; rw [hn] at h; exact h0 h.cnt
    have hp0 : m.countPages ≠ 0 := by
      intro hn
      have : inorder m.tree = [] := List.length_eq_zero_iff.1 (by rw [← h.cntp, hn])
      apply hL; rw [← h.list, this]; rfl
    cases hm : Rb.min m.tree with
    | none =>
      have := min_none hm
      rw [h.cntp, this] at hp0; simp at hp0
    | some x =>
      obtain ⟨h1, h2⟩ := min_some hm
      have hin : inorder m.tree = x.lo ++ x.v :: x.hi := by rw [← h1, x.inorder_eq]
      obtain ⟨f, fs, hf⟩ := List.exists_cons_of_ne_nil (hpage x.v (by rw [hin]; simp))
      have hx0 : x.v.events[0]? = some f := by rw [hf]; rfl
      have hlist : L = x.v.events.drop 0 ++ flat x.hi := by
        rw [← h.list, hin, h2]; simp
      simp only [scan, iterOpen, h0, if_false, seek, hp0, hm, Res.bind_ok, hx0]
      rw [iterAll_spec hpage h.pids (m.count + 1) x 0 f h1 hx0 (by rw [← hlist, h.cnt]; omega)]
      rw [← hlist]

theorem atOrAfter_append {A B : List Event} {k : Event} (hA : ∀ a ∈ A, evCmp a k < 0)
    (hB : ∀ a ∈ B, evCmp a k ≥ 0) : atOrAfter k (A ++ B) = B := by
  simp only [atOrAfter, List.filter_append]
  rw [filter_none (l := A) (by intro a ha; have := hA a ha; simp; omega),
      filter_all (l := B) (by intro a ha; have := hB a ha; simpa using this)]
  rfl

/-- A seek to a key that belongs to the last page. -/
theorem seek_last (mc : MemCmp) {base : Nat} {m : Memtable} {L : List Event} (h : Inv base m L)
    {k : Event} (hk : Within base k) (hr : Routed m k) :
    scan mc m (some k) = .ok (atOrAfter k L) ∧
    ∃ it, iterOpen mc m (some k) = .ok (it, (lookup k L).isSome) ∧
      it.current = (atOrAfter k L).head? := by
  have hpage : ∀ p ∈ inorder m.tree, p.events ≠ [] := fun p hp => (h.page p hp).1
  by_cases h0 : m.count = 0
  · have : L = [] := by apply List.length_eq_zero_iff.1; rw [← h.cnt, h0]
    subst this
    simp [scan, iterOpen, h0, iterAll, atOrAfter, lookup]
  · have hL : L ≠ [] := by intro hn; rw [hn] at h; exact h0 h.cnt
    have hp0 : m.countPages ≠ 0 := by
      intro hn
      have : inorder m.tree = [] := List.length_eq_zero_iff.1 (by rw [← h.cntp, hn])
      apply hL; rw [← h.list, this]; rfl
    obtain ⟨x, hx, hxt, hin, hxhi, hxr, hxne, hlo⟩ := searchPage_spec mc h hk hr hp0
    obtain ⟨hLs, pasc, pw, plo, _⟩ := h.page_split (lo := x.lo) (hi := []) (p := x.v) hin
    simp only [flat_nil, List.append_nil] at hLs
    rcases search_spec mc pasc pw hk hxne with ⟨A, B, hAB, hA, hB, hsr⟩ | ⟨A, y, B, hAB, hA, hy, hB, hsr⟩
    · have hat : atOrAfter k L = B := by
        rw [hLs, hAB, ← List.append_assoc]
        apply atOrAfter_append
        · intro a ha; simp at ha; rcases ha with ha | ha
          · exact hlo a ha
          · exact hA a ha
        · intro a ha; have := hB a ha; omega
      have hlk : lookup k L = none := by
        rw [hLs, lookup_append_left hlo, hAB, lookup_insert hA hB]
      have hdrop : x.v.events.drop A.length = B := by rw [hAB]; simp
      cases B with
      | nil =>
        have hnone : x.v.events[A.length]? = none := by rw [hAB]; simp
        simp [scan, iterOpen, h0, seek, hp0, hx, hsr, hnone, iterAll, hat, hlk]
      | cons b bs =>
        have hsome : x.v.events[A.length]? = some b := by rw [hAB]; simp
        have hlen : m.count = L.length := h.cnt
        have := iterAll_spec hpage h.pids (m.count + 1) x A.length b hxt hsome (by
          rw [hdrop, hxhi, hlen, hLs, hAB]; simp; omega)
        rw [hdrop, hxhi] at this
        simp [scan, iterOpen, h0, seek, hp0, hx, hsr, hsome, hat, hlk, this]
    · have hat : atOrAfter k L = y :: B := by
        rw [hLs, hAB, ← List.append_assoc]
        apply atOrAfter_append
        · intro a ha; simp at ha; rcases ha with ha | ha
          · exact hlo a ha
          · exact hA a ha
        · intro a ha; simp at ha; rcases ha with rfl | ha
          · omega
          · have := hB a ha; omega
      have hlk : lookup k L = some y := by
        rw [hLs, lookup_append_left hlo, hAB, lookup_replace hA hy]
      have hdrop : x.v.events.drop A.length = y :: B := by rw [hAB]; simp
      have hsome : x.v.events[A.length]? = some y := by rw [hAB]; simp
      have hlen : m.count = L.length := h.cnt
      have := iterAll_spec hpage h.pids (m.count + 1) x A.length y hxt hsome (by
        rw [hdrop, hxhi, hlen, hLs, hAB]; simp; omega)
      rw [hdrop, hxhi] at this
      simp [scan, iterOpen, h0, seek, hp0, hx, hsr, hsome, hat, hlk, this]

/-! ### Which keys are routed -/

/-- Fewer than `sizePage - sizeSplit` stored keys are greater than `k`. -/
theorem routed_of_few {base : Nat} {m : Memtable} {L : List Event} (h : Inv base m L)
    (hlast : LastFull m) {k : Event}
    (hf : (L.filter (fun a => evCmp a k > 0)).length < m.sizePage - m.sizeSplit) : Routed m k := by
  by_cases h1 : m.countPages ≤ 1
  · exact .inl h1
  · right
    have hlen := h.cntp
    cases hc : inorder m.tree with
    | nil => rw [hc] at hlen; simp at hlen; omega
    | cons q rest =>
      rcases List.eq_nil_or_concat rest with hn | ⟨zs, z, hz⟩
      · rw [hc, hn] at hlen; simp at hlen; omega
      · have hz : rest = zs ++ [z] := by rw [hz]; simp
        refine ⟨q :: zs, z, by rw [hz]; rfl, ?_⟩
        intro e he
        have hl := hlast q z zs (by rw [hc, hz]; rfl)
        obtain ⟨hL, pasc, pw, plo, _⟩ := h.page_split (lo := q :: zs) (hi := []) (p := z)
          (by rw [hc, hz]; rfl)
        rcases Int.lt_or_le 0 (evCmp e k) with hpos | hle
        · exfalso
          have hall : ∀ a ∈ z.events, evCmp a k > 0 := by
            obtain ⟨es, hes⟩ : ∃ es, z.events = e :: es := by
              cases hze : z.events with
              | nil => rw [hze] at he; simp at he
              | cons a as => rw [hze] at he; simp at he; exact ⟨as, by rw [he]⟩
            intro a ha
            rw [hes] at ha pasc
            simp at ha
            rcases ha with rfl | ha
            · exact hpos
            · have h1 := (List.pairwise_cons.1 pasc).1 a ha
              have h2 : evCmp k e < 0 := by have := evCmp_swap e k; omega
              have h3 := evCmp_trans h2 h1
              have := evCmp_swap a k; omega
          have : z.events.length ≤ (L.filter (fun a => evCmp a k > 0)).length := by
            rw [hL]
            simp only [flat_nil, List.append_nil, List.filter_append, List.length_append]
            rw [filter_all (l := z.events) (by simpa using hall)]
            omega
          omega
        · exact hle

theorem routed_max {base : Nat} {m : Memtable} {L : List Event} (h : Inv base m L) {k : Event}
    (hk : ∀ a ∈ L, evCmp a k ≤ 0) : Routed m k := by
  rcases List.eq_nil_or_concat (inorder m.tree) with hn | ⟨zs, z, hz⟩
  · left; rw [h.cntp, hn]; simp
  · right
    have hz : inorder m.tree = zs ++ [z] := by rw [hz]; simp
    refine ⟨zs, z, hz, ?_⟩
    intro e he
    apply hk
    rw [← h.list, hz]
    simp
    right
    cases hze : z.events with
    | nil => rw [hze] at he; simp at he
    | cons a as => rw [hze] at he; simp at he; simp [he]

theorem erase_append_left {A B : List Event} {e : Event} (hA : ∀ a ∈ A, evCmp a e < 0) :
    erase e (A ++ B) = A ++ erase e B := by
  simp only [erase, List.filter_append]
  rw [filter_all (l := A) (by intro a ha; have := hA a ha; simp; omega)]

theorem erase_found {A B : List Event} {x e : Event} (hA : ∀ a ∈ A, evCmp a e < 0)
    (hx : evCmp x e = 0) (hB : ∀ a ∈ B, evCmp a e > 0) : erase e (A ++ x :: B) = A ++ B := by
  rw [erase_append_left hA]
  simp only [erase, List.filter_cons]
  rw [filter_all (l := B) (by intro a ha; have := hB a ha; simp; omega)]
  simp [hx]

theorem erase_absent {L : List Event} {e : Event} (h : ∀ a ∈ L, evCmp a e ≠ 0) : erase e L = L := by
  simp only [erase]
  exact filter_all (by simpa using h)

theorem erase_ascending {L : List Event} (h : Ascending L) (e : Event) : Ascending (erase e L) :=
  List.Pairwise.filter _ h

/-- memtable_unset on a table without attached iterators. -/
theorem unset_spec (mc : MemCmp) {base : Nat} {m : Memtable} {L : List Event} (h : Inv base m L)
    (hit : m.iters = []) {e : Event} (hk : Within base e) (hr : Routed m e) (hL0 : L ≠ []) :
    ∃ m', unset mc m e = .ok m' ∧ Inv base m' (erase e L) ∧ Same m m' ∧
      m'.countPages ≤ m.countPages := by
  have h0 : m.countPages ≠ 0 := by
    intro hn
    have : inorder m.tree = [] := List.length_eq_zero_iff.1 (by rw [← h.cntp, hn])
    apply hL0; rw [← h.list, this]; rfl
  obtain ⟨x, hx, hxt, hin, hxhi, hxr, hxne, hlo⟩ := searchPage_spec mc h hk hr h0
  obtain ⟨hL, pasc, pw, plo, _⟩ := h.page_split (lo := x.lo) (hi := []) (p := x.v) hin
  simp only [flat_nil, List.append_nil] at hL
  have hpx := h.page x.v (by rw [hin]; simp)
  have hea := erase_ascending h.asc e
  have hew : ∀ a ∈ erase e L, Within base a := fun a ha =>
    h.within a (List.mem_filter.1 ha).1
  have hpids := h.pids
  rw [hin] at hpids
  have hpp := List.pairwise_append.1 hpids
  rcases search_spec mc pasc pw hk hxne with ⟨A, B, hAB, hA, hB, hsr⟩ | ⟨A, y, B, hAB, hA, hy, hB, hsr⟩
  · refine ⟨m, ?_, ?_, ⟨rfl, rfl, rfl, rfl, hit⟩, Nat.le_refl _⟩
    · simp [unset, h0, hx, hsr]
    · have : erase e L = L := by
        apply erase_absent
        rw [hL, hAB]
        intro a ha
        simp at ha
        rcases ha with ha | ha | ha
        · have := hlo a (by simpa using ha); omega
        · have := hA a ha; omega
        · have := hB a ha; omega
      rw [this]; exact h
  · have her : erase e L = flat x.lo ++ (A ++ B) := by
      rw [hL, erase_append_left hlo, hAB, erase_found hA hy hB]
    have hidx : x.v.events.eraseIdx A.length = A ++ B := by rw [hAB, eraseIdx_append]
    have hcnt : m.count = (flat x.lo ++ (A ++ y :: B)).length := by rw [h.cnt, hL, hAB]
    have hpc := h.cntp
    rw [hin] at hpc
    by_cases hemp : (A ++ B).length = 0
    · obtain ⟨t', hrm, hval⟩ := remove_valid (n := x) (by rw [hxt]; exact h.valid)
      have hin' : inorder t' = x.lo := by
        have := remove_inorder hrm
        rw [this]
        have : x.hi = [] := hxhi
        simp only [Loc.lo, Loc.hi] at this ⊢
        simp at this ⊢
        simp [this]
      have hnil : A ++ B = [] := List.length_eq_zero_iff.1 hemp
      have hlAB : A.length + B.length = 0 := by simpa using hemp
      refine ⟨{ m with tree := t', countPages := m.countPages - 1, count := m.count - 1 }, ?_, ?_,
        ⟨rfl, rfl, rfl, rfl, hit⟩, by simp⟩
      · simp only [unset, h0, hx, hsr, hidx, hemp, hrm, Res.bind_ok, if_true, if_false,
          Bool.not_true, Bool.false_eq_true]
      · refine ⟨hval, ?_, ?_, ?_, hea, hew, ?_, ?_, h.cfg⟩
        · intro p hp; rw [hin'] at hp; exact h.page p (by rw [hin]; simp [hp])
        · rw [hin']; exact hpp.1
        · rw [hin', her, hnil]; simp
        · rw [hin']; simp at hpc ⊢; omega
        · rw [her]; simp at hcnt ⊢; omega
    · refine ⟨{ m with tree := ({ x with v := ⟨x.v.pid, A ++ B⟩ } : Loc Page).tree,
                       count := m.count - 1 }, ?_, ?_,
        ⟨rfl, rfl, rfl, rfl, hit⟩, by simp⟩
      · simp only [unset, h0, hx, hsr, hidx, hemp, Res.bind_ok, if_false, Bool.not_true,
          Bool.false_eq_true]
      · have hin' : inorder ({ x with v := ⟨x.v.pid, A ++ B⟩ } : Loc Page).tree =
            x.lo ++ [⟨x.v.pid, A ++ B⟩] := by
          rw [Loc.inorder_eq]
          have : ({ x with v := ⟨x.v.pid, A ++ B⟩ } : Loc Page).hi = x.hi := rfl
          rw [this, hxhi]; rfl
        refine ⟨valid_setV (by rw [hxt]; exact h.valid) _, ?_, ?_, ?_, hea, hew, ?_, ?_, h.cfg⟩
        · intro p hp
          rw [hin'] at hp
          simp at hp
          rcases hp with hp | rfl
          · exact h.page p (by rw [hin]; simp [hp])
          · refine ⟨?_, ?_, hpx.2.2⟩
            · intro hn; apply hemp; exact congrArg List.length hn
            · have := hpx.2.1; rw [hAB] at this; simp at this ⊢; omega
        · rw [hin']
          refine List.pairwise_append.2 ⟨hpp.1, by simp, ?_⟩
          intro a ha b hb
          simp at hb; subst hb
          exact hpp.2.2 a ha x.v (by simp)
        · rw [hin', her]; simp
        · rw [hin']; simpa using hpc
        · rw [her]; simp at hcnt ⊢; omega

theorem routed_single {m : Memtable} (h : m.countPages ≤ 1) (k : Event) : Routed m k := .inl h

end Verif.Memtable
