import Verif.Spec.C30
import Verif.Proofs.C07

/-! Lemmas for C30: what memtable_set does to attached iterators. -/
namespace Verif.C30
open Spec Memtable Rb C07

/-- memtable_insert with attached iterators: replace, insert, or split with the
event in the new page. -/
theorem insert_cases (mc : MemCmp) {base sp ss pid : Nat} {p : Page} {e : Event}
    (hs : Ascending p.events) (hw : ∀ a ∈ p.events, Within base a) (hk : Within base e)
    (hne : p.events ≠ []) (hlen : p.events.length ≤ sp) (h1 : 0 < ss) (h2 : ss < sp) :
    (∃ A x B, p.events = A ++ x :: B ∧ (∀ a ∈ A, evCmp a e < 0) ∧ evCmp x e = 0 ∧ (∀ b ∈ B, evCmp b e > 0) ∧
      ∀ its, insert mc sp ss true pid its p e =
        (syncAll ⟨p.pid, A ++ e :: B⟩ none A.length its).bind fun t =>
          .ok ⟨⟨p.pid, A ++ e :: B⟩, none, some x, t⟩) ∨
    (∃ A B, p.events = A ++ B ∧ (∀ a ∈ A, evCmp a e < 0) ∧ (∀ b ∈ B, evCmp b e > 0) ∧
      ((p.events.length < sp ∧ ∀ its, insert mc sp ss true pid its p e =
          (syncAll ⟨p.pid, A ++ e :: B⟩ none A.length its).bind fun t =>
            .ok ⟨⟨p.pid, A ++ e :: B⟩, none, none, t⟩) ∨
       (p.events.length = sp ∧ (ss ≤ A.length → ∀ its, insert mc sp ss true pid its p e =
          (syncAll ⟨p.pid, A.take ss⟩ (some ⟨pid, A.drop ss ++ e :: B⟩) (A.length - ss) its).bind fun t =>
            .ok ⟨⟨p.pid, A.take ss⟩, some ⟨pid, A.drop ss ++ e :: B⟩, none, t⟩)))) := by
  rcases search_spec mc hs hw hk hne with ⟨A, B, hAB, hA, hB, hsr⟩ | ⟨A, x, B, hAB, hA, hx, hB, hsr⟩
  · right
    refine ⟨A, B, hAB, hA, hB, ?_⟩
    by_cases hfull : p.events.length = sp
    · refine .inr ⟨hfull, fun hge its => ?_⟩
      have hr : (p.events.drop ss).take (sp - ss) = p.events.drop ss := by
        apply List.take_of_length_le; simp; omega
      have hlt : (p.events.take ss).length = ss := by simp; omega
      have hdl : (p.events.drop ss).length = sp - ss := by simp; omega
      simp only [Memtable.insert, hsr, Res.bind_ok, hfull, if_true, Bool.not_true, Bool.false_eq_true,
        if_false, hr, hlt]
      rw [if_pos hge, if_neg (by rw [hdl]; omega)]
      have e1 : p.events.take ss = A.take ss := by
        rw [hAB, List.take_append_of_le_length hge]
      have e2 : (p.events.drop ss).insertIdx (A.length - ss) e = A.drop ss ++ e :: B := by
        rw [hAB, List.drop_append_of_le_length hge]
        have : A.length - ss = (A.drop ss).length := by simp
        rw [this, insertIdx_append]
      rw [e1, e2]
    · refine .inl ⟨by omega, fun its => ?_⟩
      simp only [Memtable.insert, hsr, Res.bind_ok, hfull, if_false, Bool.false_eq_true]
      rw [if_neg (by omega), hAB, insertIdx_append]
  · left
    refine ⟨A, x, B, hAB, hA, hx, hB, fun its => ?_⟩
    simp only [Memtable.insert, hsr, Res.bind_ok, if_true]
    rw [hAB, set_append, getElem?_append_cons]

theorem Inv.iters {base : Nat} {m : Memtable} {L : List Event} (h : Inv base m L) (its : List MIter) :
    Inv base { m with iters := its } L :=
  ⟨h.valid, h.page, h.pids, h.list, h.asc, h.within, h.cntp, h.cnt, h.cfg⟩

/-- What memtable_set does to a table with pages, for any attached iterators. -/
theorem set_iters (mc : MemCmp) {base : Nat} {m : Memtable} {L : List Event} (h : Inv base m L)
    {e : Event} (hk : Within base e) (hr : Routed m e) (h0 : m.countPages ≠ 0) :
    ∃ lo p, inorder m.tree = lo ++ [p] ∧ (∀ a ∈ flat lo, evCmp a e < 0) ∧
    ((∃ A x B T, p.events = A ++ x :: B ∧ (∀ a ∈ A, evCmp a e < 0) ∧ evCmp x e = 0 ∧ (∀ b ∈ B, evCmp b e > 0) ∧
        inorder T = lo ++ [⟨p.pid, A ++ e :: B⟩] ∧
        ∀ its, set mc true { m with iters := its } e =
          (syncAll ⟨p.pid, A ++ e :: B⟩ none A.length its).bind fun t =>
            .ok ({ m with tree := T, iters := t }, some x)) ∨
     (∃ A B, p.events = A ++ B ∧ (∀ a ∈ A, evCmp a e < 0) ∧ (∀ b ∈ B, evCmp b e > 0) ∧
       ((p.events.length < m.sizePage ∧ ∃ T, inorder T = lo ++ [⟨p.pid, A ++ e :: B⟩] ∧
          ∀ its, set mc true { m with iters := its } e =
            (syncAll ⟨p.pid, A ++ e :: B⟩ none A.length its).bind fun t =>
              .ok ({ m with tree := T, count := m.count + 1, iters := t }, none)) ∨
        (p.events.length = m.sizePage ∧ (m.sizeSplit ≤ A.length → ∃ T,
          inorder T = lo ++ [⟨p.pid, A.take m.sizeSplit⟩, ⟨m.nextPid, A.drop m.sizeSplit ++ e :: B⟩] ∧
          ∀ its, set mc true { m with iters := its } e =
            (syncAll ⟨p.pid, A.take m.sizeSplit⟩ (some ⟨m.nextPid, A.drop m.sizeSplit ++ e :: B⟩)
              (A.length - m.sizeSplit) its).bind fun t =>
              .ok ({ m with
                tree := T, countPages := m.countPages + 1, count := m.count + 1,
                nextPid := m.nextPid + 1, iters := t }, none)))))) := by
  obtain ⟨x, hx, hxt, hin, hxhi, hxr, hxne, hlo⟩ := searchPage_spec mc h hk hr h0
  obtain ⟨hL, pasc, pw, plo, _⟩ := h.page_split (lo := x.lo) (hi := []) (p := x.v) hin
  have hpx := h.page x.v (by rw [hin]; simp)
  have hsp : ∀ its, searchPage mc { m with iters := its } e = .ok x := fun its => hx
  have hin' : ∀ l, inorder ({ x with v := ⟨x.v.pid, l⟩ } : Loc Page).tree = x.lo ++ [⟨x.v.pid, l⟩] := by
    intro l
    rw [Loc.inorder_eq]
    have : ({ x with v := ⟨x.v.pid, l⟩ } : Loc Page).hi = x.hi := rfl
    rw [this, hxhi]; rfl
  refine ⟨x.lo, x.v, hin, hlo, ?_⟩
  rcases insert_cases mc (pid := m.nextPid) pasc pw hk hxne hpx.2.1 h.cfg.1 h.cfg.2 with
    ⟨A, y, B, hAB, hA, hy, hB, hi⟩ | ⟨A, B, hAB, hA, hB, hi⟩
  · refine .inl ⟨A, y, B, _, hAB, hA, hy, hB, hin' (A ++ e :: B), fun its => ?_⟩
    simp only [Memtable.set, h0, if_false, hsp its, Res.bind_ok, hi its]
    cases syncAll ⟨x.v.pid, A ++ e :: B⟩ none A.length its <;> rfl
  · refine .inr ⟨A, B, hAB, hA, hB, ?_⟩
    rcases hi with ⟨hlen, hi⟩ | ⟨hlen, hi⟩
    · refine .inl ⟨hlen, _, hin' (A ++ e :: B), fun its => ?_⟩
      simp only [Memtable.set, h0, if_false, hsp its, Res.bind_ok, hi its]
      cases syncAll ⟨x.v.pid, A ++ e :: B⟩ none A.length its <;> rfl
    · refine .inr ⟨hlen, fun hge => ?_⟩
      have hval : Valid ({ x with v := ⟨x.v.pid, A.take m.sizeSplit⟩ } : Loc Page).tree :=
        valid_setV (by rw [hxt]; exact h.valid) _
      obtain ⟨t', hst, hval'⟩ := set_right_valid (x := ({ x with v := ⟨x.v.pid, A.take m.sizeSplit⟩ } : Loc Page))
        (prel := -1) (v := ⟨m.nextPid, A.drop m.sizeSplit ++ e :: B⟩) hval hxr (by omega)
      have hin2 : inorder t' = x.lo ++ [⟨x.v.pid, A.take m.sizeSplit⟩, ⟨m.nextPid, A.drop m.sizeSplit ++ e :: B⟩] := by
        rw [set_right_inorder (by omega) hst]
        have : after x.path = [] := by
          have := hxhi; simp only [Loc.hi, List.append_eq_nil_iff] at this; exact this.2
        simp [this, Loc.lo]
      refine ⟨t', hin2, fun its => ?_⟩
      simp only [Memtable.set, h0, if_false, hsp its, Res.bind_ok, hi hge its]
      cases syncAll ⟨x.v.pid, A.take m.sizeSplit⟩ (some ⟨m.nextPid, A.drop m.sizeSplit ++ e :: B⟩)
        (A.length - m.sizeSplit) its with
      | ok t => simp only [Res.bind_ok, hst]; rfl
      | err s => rfl
      | abort s => rfl
      | ub s => rfl

/-- The iterator is on the event number `c` of the pages. -/
def At (ps : List Page) (it : MIter) (c : Nat) : Prop :=
  ∃ lo p hi e, ps = lo ++ p :: hi ∧ it = ⟨some e, some p.pid, it.pos⟩ ∧ p.events[it.pos]? = some e ∧
    c = (flat lo).length + it.pos

theorem At.current {ps : List Page} {it : MIter} {c : Nat} (h : At ps it c) :
    it.current = (flat ps)[c]? ∧ c < (flat ps).length := by
  obtain ⟨lo, p, hi, e, rfl, hit, he, rfl⟩ := h
  obtain ⟨hlt, _⟩ := List.getElem?_eq_some_iff.1 he
  constructor
  · rw [hit, flat_append, flat_cons]
    rw [List.getElem?_append_right (by omega), Nat.add_sub_cancel_left, List.getElem?_append_left hlt, he]
  · rw [flat_append, flat_cons]; simp; omega

/-- Pages that an insert does not touch. -/
theorem At.other {lo : List Page} {p : Page} {hi hi' : List Page} {it : MIter} {c : Nat}
    (h : At (lo ++ p :: hi) it c) (hc : c < (flat lo).length) : At (lo ++ hi') it c := by
  obtain ⟨a, q, b, e, hps, hit, he, rfl⟩ := h
  obtain ⟨hlt, _⟩ := List.getElem?_eq_some_iff.1 he
  have hal : a.length < lo.length := by
    apply Nat.lt_of_not_ge
    intro hge
    have : lo = a.take lo.length := by
      have := congrArg (List.take lo.length) hps
      rw [List.take_left, List.take_append_of_le_length hge] at this
      exact this
    rw [this] at hc
    have h2 : (flat a).length = (flat (a.take lo.length)).length + (flat (a.drop lo.length)).length := by
      conv => lhs; rw [← List.take_append_drop lo.length a, flat_append, List.length_append]
    omega
  refine ⟨a, q, (lo.drop (a.length + 1)) ++ hi', e, ?_, hit, he, rfl⟩
  have h1 : a = lo.take a.length := by
    have := congrArg (List.take a.length) hps
    rw [List.take_left, List.take_append_of_le_length (by omega)] at this
    exact this.symm
  have h2 : lo[a.length]? = some q := by
    have := congrArg (fun l => l[a.length]?) hps
    rw [List.getElem?_append_left hal] at this
    rw [this]; simp
  obtain ⟨hl, hq⟩ := List.getElem?_eq_some_iff.1 h2
  have h3 : lo = lo.take a.length ++ q :: lo.drop (a.length + 1) := by
    rw [← hq, ← List.drop_eq_getElem_cons hl, List.take_append_drop]
  conv => lhs; rw [h3, ← h1]
  simp

/-- Where the iterator is, relative to the last page. -/
theorem At.last {lo : List Page} {p : Page} {it : MIter} {c : Nat} (h : At (lo ++ [p]) it c) :
    c < (flat lo).length ∧ (∃ q ∈ lo, it.page = some q.pid) ∨
    ∃ e, it = ⟨some e, some p.pid, it.pos⟩ ∧ p.events[it.pos]? = some e ∧ c = (flat lo).length + it.pos := by
  obtain ⟨a, q, b, e, hps, hit, he, rfl⟩ := h
  obtain ⟨hlt, _⟩ := List.getElem?_eq_some_iff.1 he
  rcases List.eq_nil_or_concat b with rfl | ⟨b', z, rfl⟩
  · right
    have h1 := List.append_inj_left' hps rfl
    have h2 := List.append_inj_right' hps rfl
    simp at h2
    subst h1 h2
    exact ⟨e, hit, he, rfl⟩
  · left
    have hps' : lo ++ [p] = (a ++ q :: b') ++ [z] := by rw [hps]; simp
    have h1 := List.append_inj_left' hps' rfl
    subst h1
    refine ⟨?_, q, by simp, by rw [hit]⟩
    rw [flat_append, flat_cons]; simp; omega

/-- An iterator on an earlier page is not touched. -/
theorem sync_other {page : Page} {split : Option Page} {pos : Nat} {it : MIter} (h : it.page ≠ some page.pid) :
    syncIter it page split pos = .ok it := by
  unfold syncIter
  rw [if_pos (.inl h)]

theorem syncAll_one {page : Page} {split : Option Page} {pos : Nat} {it it' : MIter}
    (h : syncIter it page split pos = .ok it') : syncAll page split pos [it] = .ok [it'] := by
  simp [syncAll, h]

/-- An iterator at the end is not touched. -/
theorem sync_ended {page : Page} {split : Option Page} {pos : Nat} {it : MIter} (h : it.current = none) :
    syncIter it page split pos = .ok it := by
  unfold syncIter
  rw [if_pos (.inr h)]

theorem sync_same {pid : Nat} {l : List Event} {split : Option Page} {it : MIter} {e e' : Event}
    (hit : it = ⟨some e, some pid, it.pos⟩) (h : l[it.pos]? = some e') :
    syncIter it ⟨pid, l⟩ split it.pos = .ok ⟨some e', some pid, it.pos⟩ := by
  unfold syncIter
  rw [if_neg (by rw [hit]; simp), if_pos rfl]
  rw [h]
  rw [hit]

theorem sync_move {pid : Nat} {l : List Event} {pos : Nat} {it : MIter} {e e' : Event}
    (hit : it = ⟨some e, some pid, it.pos⟩) (hne : it.pos ≠ pos)
    (h : l[if pos ≤ it.pos then it.pos + 1 else it.pos]? = some e') :
    syncIter it ⟨pid, l⟩ none pos = .ok ⟨some e', some pid, if pos ≤ it.pos then it.pos + 1 else it.pos⟩ := by
  unfold syncIter
  rw [if_neg (by rw [hit]; simp), if_neg hne]
  dsimp only
  rw [h]

theorem sync_split_stay {pid : Nat} {l : List Event} {r : Page} {pos : Nat} {it : MIter} {e e' : Event}
    (hit : it = ⟨some e, some pid, it.pos⟩) (hne : it.pos < pos) (hl : it.pos < l.length) (h : l[it.pos]? = some e') :
    syncIter it ⟨pid, l⟩ (some r) pos = .ok ⟨some e', some pid, it.pos⟩ := by
  unfold syncIter
  rw [if_neg (by rw [hit]; simp), if_neg (by omega)]
  dsimp only
  rw [if_neg (by omega)]
  dsimp only
  rw [if_neg (by omega), h]

theorem sync_split_go {pid : Nat} {l : List Event} {r : Page} {pos : Nat} {it : MIter} {e e' : Event}
    (hit : it = ⟨some e, some pid, it.pos⟩) (hne : it.pos ≠ pos) (hl : l.length ≤ it.pos)
    (h : r.events[if pos ≤ it.pos - l.length then it.pos - l.length + 1 else it.pos - l.length]? = some e') :
    syncIter it ⟨pid, l⟩ (some r) pos =
      .ok ⟨some e', some r.pid, if pos ≤ it.pos - l.length then it.pos - l.length + 1 else it.pos - l.length⟩ := by
  unfold syncIter
  rw [if_neg (by rw [hit]; simp), if_neg hne]
  dsimp only
  rw [if_pos (by omega)]
  dsimp only
  rw [h]

/-- Replacing an event at or after the cursor, or on a later page. -/
theorem sync_replace {lo : List Page} {p : Page} {A B : List Event} {x e : Event} {it : MIter} {c : Nat}
    (hp : ∀ q ∈ lo, q.pid ≠ p.pid) (hev : p.events = A ++ x :: B) (h : At (lo ++ [p]) it c)
    (hc : c ≤ (flat lo).length + A.length) :
    ∃ it', syncIter it ⟨p.pid, A ++ e :: B⟩ none A.length = .ok it' ∧ At (lo ++ [⟨p.pid, A ++ e :: B⟩]) it' c := by
  rcases h.last with ⟨hlt, q, hq, hpg⟩ | ⟨y, hit, hy, hcc⟩
  · exact ⟨it, sync_other (by rw [hpg]; simp; exact hp q hq), At.other (hi := []) h hlt⟩
  · by_cases hi : it.pos = A.length
    · have he : (A ++ e :: B)[it.pos]? = some e := by rw [hi]; simp
      refine ⟨⟨some e, some p.pid, it.pos⟩, ?_, lo, _, [], e, rfl, rfl, he, hcc⟩
      rw [← hi]
      exact sync_same (e' := e) hit he
    · have hlt : it.pos < A.length := by omega
      have he : (A ++ e :: B)[it.pos]? = some y := by
        rw [hev] at hy
        rw [List.getElem?_append_left hlt] at hy ⊢
        exact hy
      have := sync_move (l := A ++ e :: B) (pos := A.length) (e' := y) hit hi (by rw [if_neg (by omega)]; exact he)
      rw [if_neg (by omega)] at this
      exact ⟨_, this, lo, _, [], y, rfl, rfl, he, hcc⟩

/-- Inserting into a page with room, not directly before the cursor. -/
theorem sync_insert {lo : List Page} {p : Page} {A B : List Event} {e : Event} {it : MIter} {c : Nat}
    (hp : ∀ q ∈ lo, q.pid ≠ p.pid) (hev : p.events = A ++ B) (h : At (lo ++ [p]) it c)
    (hc : c < (flat lo).length ∨ c ≠ (flat lo).length + A.length) :
    ∃ it', syncIter it ⟨p.pid, A ++ e :: B⟩ none A.length = .ok it' ∧
      At (lo ++ [⟨p.pid, A ++ e :: B⟩]) it' (if (flat lo).length + A.length ≤ c then c + 1 else c) := by
  rcases h.last with ⟨hlt, q, hq, hpg⟩ | ⟨y, hit, hy, hcc⟩
  · rw [if_neg (by omega)]
    exact ⟨it, sync_other (by rw [hpg]; simp; exact hp q hq), At.other (hi := []) h hlt⟩
  · have hi : it.pos ≠ A.length := by omega
    have he : (A ++ e :: B)[if A.length ≤ it.pos then it.pos + 1 else it.pos]? = some y := by
      rw [hev] at hy
      by_cases hle : A.length ≤ it.pos
      · rw [if_pos hle]
        rw [List.getElem?_append_right hle] at hy
        rw [List.getElem?_append_right (by omega), show it.pos + 1 - A.length = (it.pos - A.length) + 1 by omega,
          List.getElem?_cons_succ]
        exact hy
      · rw [if_neg hle]
        rw [List.getElem?_append_left (by omega)] at hy ⊢
        exact hy
    refine ⟨_, sync_move (l := A ++ e :: B) (pos := A.length) (e' := y) hit hi he, lo, _, [], y, rfl, rfl, he, ?_⟩
    dsimp only
    by_cases hle : A.length ≤ it.pos
    · rw [if_pos hle, if_pos (by omega)]; omega
    · rw [if_neg hle, if_neg (by omega)]; omega

/-- A split, with the cursor on the part that moves or before the place of the
event in the new page. -/
theorem sync_split {lo : List Page} {p : Page} {A B : List Event} {e : Event} {it : MIter} {c ss sp pid : Nat}
    (hp : ∀ q ∈ lo, q.pid ≠ p.pid) (hev : p.events = A ++ B) (h : At (lo ++ [p]) it c) (hlen : p.events.length = sp)
    (h2 : sp < 2 * ss) (hA : ss ≤ A.length)
    (hc : c < (flat lo).length ∨ (flat lo).length + ss ≤ c ∨ c + ss ≤ (flat lo).length + A.length) :
    ∃ it', syncIter it ⟨p.pid, A.take ss⟩ (some ⟨pid, A.drop ss ++ e :: B⟩) (A.length - ss) = .ok it' ∧
      At (lo ++ [⟨p.pid, A.take ss⟩, ⟨pid, A.drop ss ++ e :: B⟩]) it'
        (if (flat lo).length + A.length ≤ c then c + 1 else c) := by
  have hAB : A.length + B.length = sp := by rw [← hlen, hev]; simp
  rcases h.last with ⟨hlt, q, hq, hpg⟩ | ⟨y, hit, hy, hcc⟩
  · rw [if_neg (by omega)]
    exact ⟨it, sync_other (by rw [hpg]; simp; exact hp q hq), At.other (hi := []) h hlt⟩
  · have htl : (A.take ss).length = ss := by simp; omega
    rw [hev] at hy
    by_cases hgo : ss ≤ it.pos
    · have he : (A.drop ss ++ e :: B)[if A.length - ss ≤ it.pos - (A.take ss).length then it.pos - (A.take ss).length + 1
          else it.pos - (A.take ss).length]? = some y := by
        rw [htl]
        have hdl : (A.drop ss).length = A.length - ss := by simp
        by_cases hle : A.length ≤ it.pos
        · rw [if_pos (by omega)]
          rw [List.getElem?_append_right hle] at hy
          rw [List.getElem?_append_right (by omega), hdl,
            show it.pos - ss + 1 - (A.length - ss) = (it.pos - A.length) + 1 by omega, List.getElem?_cons_succ]
          exact hy
        · rw [if_neg (by omega)]
          rw [List.getElem?_append_left (by omega)] at hy
          rw [List.getElem?_append_left (by omega), List.getElem?_drop, show ss + (it.pos - ss) = it.pos by omega]
          exact hy
      refine ⟨_, sync_split_go (e' := y) hit (by omega) (by omega) he, lo ++ [⟨p.pid, A.take ss⟩], _, [], y, by simp, rfl, he, ?_⟩
      dsimp only
      rw [htl, flat_append, List.length_append]
      have : (flat [(⟨p.pid, A.take ss⟩ : Page)]).length = ss := by simp [flat]; omega
      rw [this]
      by_cases hle : A.length ≤ it.pos
      · rw [if_pos (by omega), if_pos (by omega)]; omega
      · rw [if_neg (by omega), if_neg (by omega)]; omega
    · have he : (A.take ss)[it.pos]? = some y := by
        rw [List.getElem?_append_left (by omega)] at hy
        rw [List.getElem?_take_of_lt (by omega)]
        exact hy
      rw [if_neg (by omega)]
      by_cases heq : it.pos = A.length - ss
      · refine ⟨⟨some y, some p.pid, it.pos⟩, ?_, lo, _, _, y, rfl, rfl, he, hcc⟩
        rw [← heq]
        exact sync_same (e' := y) hit he
      · exact ⟨_, sync_split_stay (e' := y) hit (by omega) (by omega) he, lo, _, _, y, rfl, rfl, he, hcc⟩

/-- memtable_iterator_next moves to the event after. -/
theorem next_at {m : Memtable} {L : List Event} {base : Nat} (h : Inv base m L) {it : MIter} {c : Nat}
    (hat : At (inorder m.tree) it c) :
    ∃ it', iterNext m it = .ok it' ∧ (c + 1 < L.length ∧ At (inorder m.tree) it' (c + 1) ∨
      c + 1 = L.length ∧ it'.current = none) := by
  have hpids := h.pids
  obtain ⟨lo, p, hi, e, hin, hit, he, rfl⟩ := hat
  obtain ⟨hlt, _⟩ := List.getElem?_eq_some_iff.1 he
  obtain ⟨y, hl, hyt, hylo, hyv, hyhi⟩ : ∃ y : Loc Page, locate (fun q => q.pid == p.pid) m.tree [] = some y ∧
      y.tree = m.tree ∧ y.lo = lo ∧ y.v = p ∧ y.hi = hi := by
    cases hl : locate (fun q : Page => q.pid == p.pid) m.tree [] with
    | none =>
      have := locate_none hl p (by rw [hin]; simp)
      simp at this
    | some y =>
      obtain ⟨h1, h2, _⟩ := locate_some hl
      have h1 : y.tree = m.tree := h1
      have hin2 : inorder m.tree = y.lo ++ y.v :: y.hi := by rw [← h1, y.inorder_eq]
      have := pid_unique (by rw [← hin2]; exact hpids) (hin2.symm.trans hin) (by simpa using h2)
      exact ⟨y, rfl, h1, this⟩
  have hlist := h.list
  rw [hin, flat_append, flat_cons] at hlist
  have hLlen : L.length = (flat lo).length + p.events.length + (flat hi).length := by rw [← hlist]; simp; omega
  cases hnx : p.events[it.pos + 1]? with
  | some e' =>
    obtain ⟨hlt', _⟩ := List.getElem?_eq_some_iff.1 hnx
    refine ⟨⟨some e', some p.pid, it.pos + 1⟩, ?_, .inl ⟨by omega, lo, p, hi, e', hin, rfl, hnx, by dsimp only; omega⟩⟩
    rw [hit]
    simp only [iterNext, hl, hyv, hnx]
  | none =>
    have hlen := List.getElem?_eq_none_iff.1 hnx
    cases hny : Rb.next y with
    | none =>
      have hh := next_none hny
      rw [hyhi] at hh
      refine ⟨⟨none, none, 0⟩, ?_, .inr ⟨?_, rfl⟩⟩
      · rw [hit]
        simp only [iterNext, hl, hyv, hnx, hny]
      · rw [hLlen, hh]; simp; omega
    | some z =>
      obtain ⟨z1, z2⟩ := next_some hny
      have hzt : z.tree = m.tree := z1.trans hyt
      have e1 := z.inorder_eq
      rw [hzt, hin, z2, hylo, hyv] at e1
      simp at e1
      have hzne := (h.page z.v (by rw [hin, e1]; simp)).1
      obtain ⟨f, fs, hf⟩ := List.exists_cons_of_ne_nil hzne
      refine ⟨⟨some f, some z.v.pid, 0⟩, ?_, .inl ⟨?_, lo ++ [p], z.v, z.hi, f, by rw [hin, e1]; simp, rfl, by simp [hf], ?_⟩⟩
      · rw [hit]
        simp only [iterNext, hl, hyv, hnx, hny, hf]
      · rw [hLlen, e1, flat_cons, hf]; simp; omega
      · rw [flat_append]; simp [flat]; omega

/-! ### Positions and keys -/

theorem split_at {L : List Event} {c : Nat} {k : Event} (h : L[c]? = some k) :
    L = L.take c ++ k :: L.drop (c + 1) ∧ (L.take c).length = c := by
  obtain ⟨hlt, hk⟩ := List.getElem?_eq_some_iff.1 h
  refine ⟨?_, by simp; omega⟩
  rw [← hk, ← List.drop_eq_getElem_cons hlt, List.take_append_drop]

theorem index_split {A B : List Event} {k : Event} (hA : ∀ a ∈ A, evCmp a k < 0) (hB : ∀ b ∈ B, 0 ≤ evCmp b k) :
    index (A ++ B) k = A.length := by
  unfold index
  rw [List.filter_append, filter_all (l := A) (by simpa using hA),
    filter_none (l := B) (by intro b hb; have := hB b hb; simp; omega)]
  simp

theorem index_at {L : List Event} (h : Ascending L) {c : Nat} {k : Event} (hk : L[c]? = some k) : index L k = c := by
  obtain ⟨h1, h2⟩ := split_at hk
  rw [h1] at h
  have h3 := List.pairwise_append.1 h
  have := index_split (A := L.take c) (B := k :: L.drop (c + 1)) (k := k) (fun a ha => h3.2.2 a ha k (by simp)) (by
    intro b hb
    rcases List.mem_cons.1 hb with rfl | hb
    · rw [evCmp_refl]; omega
    · have := (List.pairwise_cons.1 h3.2.1).1 b hb
      have := evCmp_swap k b
      omega)
  rw [← h1, h2] at this
  exact this

theorem find_at {M : List Event} (h : Ascending M) {c : Nat} {x k : Event} (hx : M[c]? = some x) (hp : x.pair = k.pair) :
    M.find? (fun a => a.pair == k.pair) = some x := by
  obtain ⟨h1, _⟩ := split_at hx
  rw [h1] at h ⊢
  have h3 := List.pairwise_append.1 h
  rw [List.find?_append, List.find?_eq_none.2, Option.none_or, List.find?_cons_of_pos (by simp [hp])]
  intro a ha
  have := h3.2.2 a ha x (by simp)
  simp only [beq_iff_eq]
  intro he
  rw [evCmp_eq.2 (he.trans hp.symm)] at this
  omega

theorem find_next {L : List Event} (h : Ascending L) {c : Nat} {k : Event} (hk : L[c]? = some k) :
    L.find? (fun a => decide (evCmp k a < 0)) = L[c + 1]? := by
  obtain ⟨h1, h2⟩ := split_at hk
  have h3 := List.pairwise_append.1 (h1 ▸ h)
  have h4 := List.pairwise_cons.1 h3.2.1
  have e1 : (L.take c).find? (fun a => decide (evCmp k a < 0)) = none := by
    rw [List.find?_eq_none]
    intro a ha
    have := h3.2.2 a ha k (by simp)
    have := evCmp_swap k a
    simp; omega
  have e2 : (L.drop (c + 1)).find? (fun a => decide (evCmp k a < 0)) = L[c + 1]? := by
    rw [← List.head?_drop]
    cases hd : L.drop (c + 1) with
    | nil => rfl
    | cons b B =>
      rw [List.find?_cons_of_pos (by simpa using h4.1 b (by rw [hd]; simp))]
      rfl
  have e3 : ¬ (decide (evCmp k k < 0) = true) := by rw [evCmp_refl]; decide
  have : L.find? (fun a => decide (evCmp k a < 0)) =
      (L.take c ++ k :: L.drop (c + 1)).find? (fun a => decide (evCmp k a < 0)) := by rw [← h1]
  rw [this, List.find?_append, e1, Option.none_or, List.find?_cons_of_neg (p := fun a => decide (evCmp k a < 0)) e3, e2]

theorem insert_at {P B : List Event} {e k : Event} {c : Nat} (h : (P ++ B)[c]? = some k) :
    (P ++ e :: B)[if P.length ≤ c then c + 1 else c]? = some k := by
  by_cases hc : P.length ≤ c
  · rw [if_pos hc]
    rw [List.getElem?_append_right hc] at h
    rw [List.getElem?_append_right (by omega), show c + 1 - P.length = (c - P.length) + 1 by omega, List.getElem?_cons_succ]
    exact h
  · rw [if_neg hc]
    rw [List.getElem?_append_left (by omega)] at h ⊢
    exact h

theorem replace_at {P B : List Event} {x e k : Event} {c : Nat} (hx : x.pair = e.pair) (h : (P ++ x :: B)[c]? = some k) :
    ∃ k', (P ++ e :: B)[c]? = some k' ∧ k'.pair = k.pair := by
  by_cases hc : P.length ≤ c
  · rw [List.getElem?_append_right hc] at h ⊢
    cases hd : c - P.length with
    | zero =>
      rw [hd] at h
      simp at h
      subst h
      exact ⟨e, by simp, hx.symm⟩
    | succ n =>
      rw [hd] at h
      exact ⟨k, by simpa using h, rfl⟩
  · rw [List.getElem?_append_left (by omega)] at h ⊢
    exact ⟨k, h, rfl⟩

/-- What the thread sees matches the reference. -/
structure Sim (mc : MemCmp) (sp ss : Nat) (es : List Event) (m : Memtable) (s : Ref) : Prop where
  run : ∃ ps, C07.run mc (Memtable.init sp ss) es = .ok ({ m with iters := [] }, ps)
  table : s.1 = C07.table es
  last : ∀ lo p, inorder m.tree = lo ++ [p] → p.events.length = lastLen sp ss (C07.table es).length
  it : ∃ it, m.iters = [it] ∧ it.current = s.2 ∧
    (s.2 = none ∨ ∃ c, At (inorder m.tree) it c ∧ s.2 = (C07.table es)[c]?)

/-- A table without an iterator. -/
theorem Sim.reach {mc : MemCmp} {sp ss base : Nat} {es : List Event} {m : Memtable} {s : Ref} (h : Sim mc sp ss es m s)
    (h1 : 0 < ss) (h2 : ss < sp) (hw : ∀ e ∈ es, Within base e) (ht : Tame sp ss es) :
    Reach sp ss base es { m with iters := [] } := by
  obtain ⟨ps, hr⟩ := h.run
  obtain ⟨m', ps', hr', hreach, _⟩ := run_tame mc h1 h2 base es hw ht
  rw [hr] at hr'
  simp only [Res.ok.injEq, Prod.mk.injEq] at hr'
  rw [hr'.1]
  exact hreach

theorem sim_next {mc : MemCmp} {sp ss base : Nat} {es : List Event} {m : Memtable} {s : Ref} (h : Sim mc sp ss es m s)
    (h1 : 0 < ss) (h2 : ss < sp) (hw : ∀ e ∈ es, Within base e) (ht : Tame sp ss es) :
    ∃ m', step mc m .next = .ok m' ∧ Sim mc sp ss es m' (refStep s .next) := by
  have hre := h.reach h1 h2 hw ht
  have hinv := Inv.iters hre.inv m.iters
  obtain ⟨it, hit, hcur, hat⟩ := h.it
  have hmm : ({ ({ m with iters := [] } : Memtable) with iters := m.iters } : Memtable) = m := rfl
  rw [hmm] at hinv
  have key : ∃ it', iterNext m it = .ok it' ∧ it'.current = (refStep s .next).2 ∧
      ((refStep s .next).2 = none ∨ ∃ c, At (inorder m.tree) it' c ∧ (refStep s .next).2 = (C07.table es)[c]?) := by
    rcases hat with hn | ⟨c, hat, hc⟩
    · refine ⟨it, ?_, ?_, .inl ?_⟩
      · rw [hn] at hcur
        simp [iterNext, hcur]
      · rw [hcur]; simp [refStep, hn]
      · simp [refStep, hn]
    · obtain ⟨it', hnx, hh⟩ := next_at hinv hat
      obtain ⟨k, hk⟩ : ∃ k, (C07.table es)[c]? = some k := by
        have := hat.current.2
        rw [hinv.list] at this
        exact ⟨_, List.getElem?_eq_getElem this⟩
      have href : (refStep s .next).2 = (C07.table es)[c + 1]? := by
        simp only [refStep, hc, hk, Option.bind_some, h.table]
        exact find_next hinv.asc hk
      refine ⟨it', hnx, ?_, ?_⟩
      · rw [href]
        rcases hh with ⟨_, hat'⟩ | ⟨hl, hcn⟩
        · rw [hat'.current.1, hinv.list]
        · rw [hcn, List.getElem?_eq_none (by omega)]
      · rcases hh with ⟨_, hat'⟩ | ⟨hl, hcn⟩
        · exact .inr ⟨c + 1, hat', href⟩
        · left; rw [href, List.getElem?_eq_none (by omega)]
  obtain ⟨it', hnx, k1, k2⟩ := key
  refine ⟨{ m with iters := [it'] }, ?_, h.run, h.table, h.last, it', rfl, k1, k2⟩
  simp only [step, hit, hnx, Res.bind_ok]

theorem last_page {lo lo' : List Page} {p p' : Page} (h : lo ++ [p] = lo' ++ [p']) : p' = p := by
  have := List.append_inj_right' h rfl
  simpa using this.symm

theorem sim_write {mc : MemCmp} {sp ss base : Nat} {es : List Event} {m : Memtable} {s : Ref} {e : Event}
    (h : Sim mc sp ss es m s) (h1 : 0 < ss) (h2 : ss < sp) (h3 : sp < 2 * ss)
    (hw : ∀ x ∈ es ++ [e], Within base x) (ht : Tame sp ss (es ++ [e]))
    (hs : ∀ k, s.2 = some k → Harmless sp ss s.1 k e) :
    ∃ m', step mc m (.write e) = .ok m' ∧ Sim mc sp ss (es ++ [e]) m' (refStep s (.write e)) := by
  have ht0 : Tame sp ss es := fun pre x post hx => ht pre x (post ++ [e]) (by rw [hx]; simp)
  have hre := h.reach h1 h2 (fun x hx => hw x (by simp [hx])) ht0
  have hinv : Inv base m (C07.table es) := Inv.iters hre.inv m.iters
  obtain ⟨it, hit, hcur, hat⟩ := h.it
  obtain ⟨ps, hrun⟩ := h.run
  obtain ⟨m1, ps1, hrun1, hre1, _⟩ := run_tame mc h1 h2 base (es ++ [e]) hw ht
  have hset0 : ∃ q, Memtable.set mc true { m with iters := [] } e = .ok (m1, q) := by
    rw [run_snoc, hrun] at hrun1
    simp only [Res.bind_ok] at hrun1
    cases hq : Memtable.set mc true { m with iters := [] } e with
    | ok r =>
      rw [hq] at hrun1
      simp only [Res.bind_ok, Res.ok.injEq, Prod.mk.injEq] at hrun1
      exact ⟨r.2, by rw [← hrun1.1]⟩
    | err x => rw [hq] at hrun1; cases hrun1
    | abort x => rw [hq] at hrun1; cases hrun1
    | ub x => rw [hq] at hrun1; cases hrun1
  obtain ⟨q, hset0⟩ := hset0
  have hm0 : ({ m with iters := [it] } : Memtable) = m := by rw [← hit]
  have htab : C07.table (es ++ [e]) = put e (C07.table es) := table_snoc es e
  have hinv1 := hre1.inv
  have hasc1 : Ascending (put e (C07.table es)) := htab ▸ hinv1.asc
  -- finish from the new table, the synced iterator and its position
  have finish : ∀ (m' : Memtable) (it' : MIter), m1 = { m' with iters := [] } →
      Memtable.set mc true m e = .ok ({ m' with iters := [it'] }, q) →
      (∀ lo p, inorder m'.tree = lo ++ [p] → p.events.length = lastLen sp ss (C07.table (es ++ [e])).length) →
      ((s.2 = none ∧ it'.current = none) ∨ ∃ (k : Event) (c c' : Nat) (k' : Event), s.2 = some k ∧ (C07.table es)[c]? = some k ∧
        At (inorder m'.tree) it' c' ∧ (flat (inorder m'.tree))[c']? = some k' ∧ k'.pair = k.pair) →
      ∃ m', step mc m (.write e) = .ok m' ∧ Sim mc sp ss (es ++ [e]) m' (refStep s (.write e)) := by
    intro m' it' hm1 hset hlast hpos
    refine ⟨{ m' with iters := [it'] }, by simp only [step, hset, Res.bind_ok], ⟨ps1, ?_⟩, ?_, hlast, it', rfl, ?_⟩
    · rw [hrun1, hm1]
    · simp only [refStep, h.table, htab]
    · rcases hpos with ⟨hn, hc⟩ | ⟨k, c, c', k', hk, _, hat', hk', hp⟩
      · have : (refStep s (.write e)).2 = none := by simp [refStep, hn]
        rw [this]
        exact ⟨hc, .inl rfl⟩
      · have hflat : flat (inorder m'.tree) = put e (C07.table es) := by
          rw [← htab, ← hinv1.list, hm1]
        have href : (refStep s (.write e)).2 = some k' := by
          simp only [refStep, hk, Option.bind_some, h.table]
          exact find_at hasc1 (hflat ▸ hk') hp
        rw [href]
        exact ⟨by rw [hat'.current.1, hk'], .inr ⟨c', hat', by rw [htab, ← hflat, hk']⟩⟩
  by_cases h0 : m.countPages = 0
  · -- the first page
    have hin : inorder m.tree = [] := List.length_eq_zero_iff.1 (by rw [← hinv.cntp, h0])
    have hn : s.2 = none := by
      rcases hat with hn | ⟨c, ⟨lo, p, hi, x, hx, _⟩, _⟩
      · exact hn
      · rw [hin] at hx; simp at hx
    have hT : C07.table es = [] := by rw [← hinv.list, hin]; rfl
    have hc : ∀ its, Memtable.set mc true { m with iters := its } e = .ok ({ m with
        tree := .node .black .nil ⟨m.nextPid, [e]⟩ .nil, countPages := 1,
        count := m.count + 1, nextPid := m.nextPid + 1, iters := its }, none) := by
      intro its
      simp only [Memtable.set, h0, if_true, Bool.not_true, Bool.false_eq_true, if_false]
      rfl
    rw [hc []] at hset0
    simp only [Res.ok.injEq, Prod.mk.injEq] at hset0
    refine finish { m with
        tree := .node .black .nil ⟨m.nextPid, [e]⟩ .nil, countPages := 1,
        count := m.count + 1, nextPid := m.nextPid + 1 } it hset0.1.symm ?_ ?_ (.inl ⟨hn, by rw [hcur, hn]⟩)
    · have := hc [it]
      rw [hm0] at this
      rw [this, hset0.2]
    · intro lo p hp
      have hp1 : p = ⟨m.nextPid, [e]⟩ := last_page (lo := []) hp
      rw [hp1, htab, hT]
      show 1 = lastLen sp ss (0 + 1)
      unfold lastLen
      rw [if_neg]
      · rfl
      · show ¬ 0 = sp; omega
  · have hrt : Routed m e := by
      have hh : Routed { m with iters := [] } e := by
        apply hre.routed
        rcases ht es e [] rfl with hx | hx
        · left
          rw [htab] at hx
          have := put_length_ge (table_ascending es) e
          omega
        · exact .inr hx
      exact hh
    obtain ⟨lo, p, hin, hlo, hcases⟩ := set_iters mc hinv (hw e (by simp)) hrt h0
    have hpl := h.last lo p hin
    have hpid : ∀ q ∈ lo, q.pid ≠ p.pid := by
      have := hinv.pids
      rw [hin] at this
      intro q hq
      exact (List.pairwise_append.1 this).2.2 q hq p (by simp)
    have hL : C07.table es = flat lo ++ p.events := by rw [← hinv.list, hin]; simp
    have hlenL : (C07.table es).length = (flat lo).length + p.events.length := by rw [hL]; simp
    have hstart : (C07.table es).length - lastLen sp ss (C07.table es).length = (flat lo).length := by omega
    have hend : s.2 = none → ∀ page split pos, syncIter it page split pos = .ok it :=
      fun hn page split pos => sync_ended (by rw [hcur, hn])
    rcases hcases with ⟨A, x, B, T, hev, hA, hx, hB, hT, hsc⟩ | ⟨A, B, hev, hA, hB, hsc⟩
    · -- replace
      have hx' : x.pair = e.pair := evCmp_eq.1 hx
      have h00 := hsc []
      rw [hset0] at h00
      simp only [syncAll, Res.bind_ok, Res.ok.injEq, Prod.mk.injEq] at h00
      have hidx : index (C07.table es) e = (flat lo).length + A.length := by
        rw [hL, hev, ← List.append_assoc, index_split]
        · simp
        · intro a ha
          rcases List.mem_append.1 ha with ha | ha
          · exact hlo a ha
          · exact hA a ha
        · intro b hb
          rcases List.mem_cons.1 hb with rfl | hb
          · omega
          · have := hB b hb; omega
      have hlast' : ∀ lo' p', inorder T = lo' ++ [p'] → p'.events.length = lastLen sp ss (C07.table (es ++ [e])).length := by
        intro lo' p' hp'
        rw [hT] at hp'
        rw [last_page hp', htab]
        have : (put e (C07.table es)).length = (C07.table es).length := by
          rw [hL, put_append_left hlo, hev, put_replace hA hx hB]; simp
        rw [this, ← hpl, hev]; simp
      have hc2 := hsc [it]
      rw [hm0] at hc2
      rcases hat with hn | ⟨c, hat, hc⟩
      · rw [syncAll_one (hend hn _ _ _), Res.bind_ok] at hc2
        refine finish { m with tree := T } it h00.1 (by rw [hc2, h00.2]) hlast' (.inl ⟨hn, by rw [hcur, hn]⟩)
      · rw [hin] at hat
        obtain ⟨k, hk⟩ : ∃ k, s.2 = some k := by
          have := hat.current.2
          rw [← hin, hinv.list] at this
          exact ⟨_, hc.trans (List.getElem?_eq_getElem this)⟩
        rw [hk] at hc
        have hci := index_at hinv.asc hc.symm
        have hle : c ≤ (flat lo).length + A.length := by
          have := hs k hk
          unfold Harmless at this
          rw [h.table] at this
          dsimp only at this
          rw [hstart, hci, if_pos ⟨x, by rw [hL, hev]; simp, hx'⟩, hidx] at this
          omega
        obtain ⟨it', hsy, hat'⟩ := sync_replace (e := e) hpid hev hat hle
        rw [syncAll_one hsy, Res.bind_ok] at hc2
        rw [← hT] at hat'
        obtain ⟨k', hk', hp'⟩ := replace_at (P := flat lo ++ A) (B := B) (e := e) hx' (c := c) (k := k) (by
          rw [List.append_assoc, ← hev, ← hL]; exact hc.symm)
        refine finish { m with tree := T } it' h00.1 (by rw [hc2, h00.2]) hlast' (.inr ⟨k, c, c, k', hk, hc.symm, hat', ?_, hp'⟩)
        rw [show ({ m with tree := T } : Memtable).tree = T from rfl, hT]
        simpa using hk'
    · have hnew : ¬ ∃ a ∈ C07.table es, a.pair = e.pair := by
        rintro ⟨a, ha, hae⟩
        have h0' := evCmp_eq.2 hae
        rw [hL, hev] at ha
        simp only [List.mem_append] at ha
        rcases ha with ha | ha | ha
        · have := hlo a ha; omega
        · have := hA a ha; omega
        · have := hB a ha; omega
      have hidx : index (C07.table es) e = (flat lo).length + A.length := by
        rw [hL, hev, ← List.append_assoc, index_split]
        · simp
        · intro a ha
          rcases List.mem_append.1 ha with ha | ha
          · exact hlo a ha
          · exact hA a ha
        · intro b hb
          have := hB b hb; omega
      have hput : put e (C07.table es) = flat lo ++ A ++ e :: B := by
        rw [hL, put_append_left hlo, hev, put_insert hA hB]; simp
      have hlenp : (C07.table (es ++ [e])).length = (C07.table es).length + 1 := by
        rw [htab, hput, hL, hev]; simp; omega
      rcases hsc with ⟨hroom, T, hT, hsc⟩ | ⟨hfull, hsc⟩
      · have hroom' : p.events.length < sp := by rw [← hre.hsp]; exact hroom
        have h00 := hsc []
        rw [hset0] at h00
        simp only [syncAll, Res.bind_ok, Res.ok.injEq, Prod.mk.injEq] at h00
        have hlast' : ∀ lo' p', inorder T = lo' ++ [p'] → p'.events.length = lastLen sp ss (C07.table (es ++ [e])).length := by
          intro lo' p' hp'
          rw [hT] at hp'
          rw [last_page hp', hlenp]
          unfold lastLen
          rw [if_neg (by omega), ← hpl, hev]
          simp; omega
        have hc2 := hsc [it]
        rw [hm0] at hc2
        rcases hat with hn | ⟨c, hat, hc⟩
        · rw [syncAll_one (hend hn _ _ _), Res.bind_ok] at hc2
          refine finish { m with tree := T, count := m.count + 1 } it h00.1 (by rw [hc2, h00.2]) hlast'
            (.inl ⟨hn, by rw [hcur, hn]⟩)
        · rw [hin] at hat
          obtain ⟨k, hk⟩ : ∃ k, s.2 = some k := by
            have := hat.current.2
            rw [← hin, hinv.list] at this
            exact ⟨_, hc.trans (List.getElem?_eq_getElem this)⟩
          rw [hk] at hc
          have hci := index_at hinv.asc hc.symm
          have hle : c < (flat lo).length ∨ c ≠ (flat lo).length + A.length := by
            have := hs k hk
            unfold Harmless at this
            rw [h.table] at this
            dsimp only at this
            rw [hstart, hci, if_neg hnew, if_pos (by omega), hidx] at this
            omega
          obtain ⟨it', hsy, hat'⟩ := sync_insert (e := e) hpid hev hat hle
          rw [syncAll_one hsy, Res.bind_ok] at hc2
          rw [← hT] at hat'
          have hk' := insert_at (P := flat lo ++ A) (B := B) (e := e) (c := c) (k := k) (by
            rw [List.append_assoc, ← hev, ← hL]; exact hc.symm)
          rw [List.length_append] at hk'
          refine finish { m with tree := T, count := m.count + 1 } it' h00.1 (by rw [hc2, h00.2]) hlast'
            (.inr ⟨k, c, _, k, hk, hc.symm, hat', ?_, rfl⟩)
          rw [show ({ m with tree := T, count := m.count + 1 } : Memtable).tree = T from rfl, hT]
          simpa using hk'
      · have hspm : m.sizePage = sp := hre.hsp
        have hssm : m.sizeSplit = ss := hre.hss
        have hfull' : p.events.length = sp := by rw [← hspm]; exact hfull
        have hABl : A.length + B.length = sp := by rw [← hfull', hev]; simp
        have hBl : B.length < sp - ss := by
          rcases ht es e [] rfl with hx | hx
          · omega
          · have hf : (C07.table es).filter (fun a => evCmp a e > 0) = B := by
              rw [hL, hev, List.filter_append, List.filter_append, filter_all (l := B) (by simpa using hB),
                filter_none (l := A) (by intro a ha; have := hA a ha; simp; omega),
                filter_none (l := flat lo) (by intro a ha; have := hlo a ha; simp; omega)]
              simp
            rw [hf] at hx
            exact hx
        subst hssm
        obtain ⟨T, hT, hsc⟩ := hsc (by omega)
        have h00 := hsc []
        rw [hset0] at h00
        simp only [syncAll, Res.bind_ok, Res.ok.injEq, Prod.mk.injEq] at h00
        have hT' : inorder T = (lo ++ [⟨p.pid, A.take m.sizeSplit⟩]) ++ [⟨m.nextPid, A.drop m.sizeSplit ++ e :: B⟩] := by rw [hT]; simp
        have hlast' : ∀ lo' p', inorder T = lo' ++ [p'] → p'.events.length = lastLen sp m.sizeSplit (C07.table (es ++ [e])).length := by
          intro lo' p' hp'
          rw [hT'] at hp'
          rw [last_page hp', hlenp]
          unfold lastLen
          rw [if_pos (by omega)]
          simp; omega
        have hc2 := hsc [it]
        rw [hm0] at hc2
        rcases hat with hn | ⟨c, hat, hc⟩
        · rw [syncAll_one (hend hn _ _ _), Res.bind_ok] at hc2
          refine finish { m with
            tree := T, countPages := m.countPages + 1, count := m.count + 1, nextPid := m.nextPid + 1 } it h00.1
            (by rw [hc2, h00.2]) hlast' (.inl ⟨hn, by rw [hcur, hn]⟩)
        · rw [hin] at hat
          obtain ⟨k, hk⟩ : ∃ k, s.2 = some k := by
            have := hat.current.2
            rw [← hin, hinv.list] at this
            exact ⟨_, hc.trans (List.getElem?_eq_getElem this)⟩
          rw [hk] at hc
          have hci := index_at hinv.asc hc.symm
          have hle : c < (flat lo).length ∨ (flat lo).length + m.sizeSplit ≤ c ∨ c + m.sizeSplit ≤ (flat lo).length + A.length := by
            have := hs k hk
            unfold Harmless at this
            rw [h.table] at this
            dsimp only at this
            rw [hstart, hci, if_neg hnew, if_neg (by omega), hidx] at this
            omega
          obtain ⟨it', hsy, hat'⟩ := sync_split (e := e) (pid := m.nextPid) hpid hev hat hfull' h3 (by omega) hle
          rw [syncAll_one hsy, Res.bind_ok] at hc2
          rw [← hT] at hat'
          have hk' := insert_at (P := flat lo ++ A) (B := B) (e := e) (c := c) (k := k) (by
            rw [List.append_assoc, ← hev, ← hL]; exact hc.symm)
          rw [List.length_append] at hk'
          refine finish { m with
            tree := T, countPages := m.countPages + 1, count := m.count + 1, nextPid := m.nextPid + 1 } it' h00.1
            (by rw [hc2, h00.2]) hlast' (.inr ⟨k, c, _, k, hk, hc.symm, hat', ?_, rfl⟩)
          rw [show ({ m with
            tree := T, countPages := m.countPages + 1, count := m.count + 1, nextPid := m.nextPid + 1 } : Memtable).tree = T
            from rfl, hT]
          have hfl : flat (lo ++ [⟨p.pid, A.take m.sizeSplit⟩, ⟨m.nextPid, A.drop m.sizeSplit ++ e :: B⟩]) = flat lo ++ A ++ e :: B := by
            simp only [flat_append, flat_cons, flat_nil, List.append_nil]
            rw [← List.append_assoc (A.take m.sizeSplit), List.take_append_drop, List.append_assoc]
          rw [hfl]
          exact hk'

/-- A cursor at the end, on a table filled by writes. -/
theorem sim_filled (mc : MemCmp) {sp ss base : Nat} (h1 : 0 < ss) (h2 : ss < sp) (h3 : sp < 2 * ss) :
    ∀ (es pre : List Event) (m : Memtable), Sim mc sp ss pre m (C07.table pre, none) →
      (∀ x ∈ pre ++ es, Within base x) → Tame sp ss (pre ++ es) →
      ∃ m, Sim mc sp ss (pre ++ es) m (C07.table (pre ++ es), none) := by
  intro es
  induction es with
  | nil =>
    intro pre m hm _ _
    rw [List.append_nil]
    exact ⟨m, hm⟩
  | cons e es ih =>
    intro pre m hm hw ht
    have heq : pre ++ e :: es = (pre ++ [e]) ++ es := by simp
    obtain ⟨m', _, hm'⟩ := sim_write (base := base) (e := e) hm h1 h2 h3
      (fun x hx => hw x (by rw [heq]; exact List.mem_append_left _ hx))
      (fun p x post hx => ht p x (post ++ es) (by rw [heq, hx]; simp)) (by intro k hk; cases hk)
    have : refStep (C07.table pre, none) (.write e) = (C07.table (pre ++ [e]), none) := by
      simp [refStep, table_snoc]
    rw [heq] at hw ht ⊢
    exact ih _ m' (by rw [← this]; exact hm') hw ht

/-- An empty table with a cursor at the end. -/
theorem sim_empty (mc : MemCmp) (sp ss : Nat) :
    Sim mc sp ss [] { Memtable.init sp ss with iters := [⟨none, none, 0⟩] } (C07.table [], none) := by
  refine ⟨⟨[], rfl⟩, rfl, ?_, _, rfl, rfl, .inl rfl⟩
  intro lo p hp
  have : (lo ++ [p]).length = 0 := by rw [← hp]; rfl
  simp at this

theorem sim_open (mc : MemCmp) {sp ss base : Nat} (h1 : 0 < ss) (h2 : ss < sp) (h3 : sp < 2 * ss)
    {es : List Event} (hw : ∀ x ∈ es, Within base x) (ht : Tame sp ss es) :
    ∃ m ps m', C07.run mc (Memtable.init sp ss) es = .ok (m, ps) ∧ opened mc m = .ok m' ∧
      Sim mc sp ss es m' (C07.table es, (C07.table es).head?) := by
  obtain ⟨m, hm⟩ := sim_filled mc h1 h2 h3 es [] _ (sim_empty mc sp ss) hw ht
  rw [List.nil_append] at hm
  have hre := hm.reach h1 h2 hw ht
  have h := hre.inv
  obtain ⟨ps, hrun⟩ := hm.run
  have hlast := hm.last
  generalize hm0 : ({ m with iters := [] } : Memtable) = m0 at hre h hrun
  have htree : m.tree = m0.tree := by rw [← hm0]
  rw [htree] at hlast
  have hfin : ∀ it b, iterOpen mc m0 none = .ok (it, b) → it.current = (C07.table es).head? →
      ((C07.table es).head? = none ∨ ∃ c, At (inorder m0.tree) it c ∧ (C07.table es).head? = (C07.table es)[c]?) →
      ∃ m ps m', C07.run mc (Memtable.init sp ss) es = .ok (m, ps) ∧ opened mc m = .ok m' ∧
        Sim mc sp ss es m' (C07.table es, (C07.table es).head?) := by
    intro it b ho hc hat
    refine ⟨m0, ps, { m0 with iters := [it] }, hrun, by simp only [opened, ho, Res.bind_ok], ⟨ps, ?_⟩, rfl, hlast, it, rfl, hc, hat⟩
    rw [hrun, ← hm0]
  have hpage : ∀ p ∈ inorder m0.tree, p.events ≠ [] := fun p hp => (h.page p hp).1
  by_cases h0 : m0.count = 0
  · have hn : C07.table es = [] := by apply List.length_eq_zero_iff.1; rw [← h.cnt, h0]
    exact hfin ⟨none, none, 0⟩ false (by simp [iterOpen, h0]) (by rw [hn]; rfl) (.inl (by rw [hn]; rfl))
  · have hL : C07.table es ≠ [] := by intro hn; rw [hn] at h; exact h0 h.cnt
    have hp0 : m0.countPages ≠ 0 := by
      intro hn
      have : inorder m0.tree = [] := List.length_eq_zero_iff.1 (by rw [← h.cntp, hn])
      apply hL; rw [← h.list, this]; rfl
    cases hmn : Rb.min m0.tree with
    | none =>
      have := min_none hmn
      rw [h.cntp, this] at hp0; simp at hp0
    | some x =>
      obtain ⟨h1, h2⟩ := min_some hmn
      have hin : inorder m0.tree = x.lo ++ x.v :: x.hi := by rw [← h1, x.inorder_eq]
      obtain ⟨f, fs, hf⟩ := List.exists_cons_of_ne_nil (hpage x.v (by rw [hin]; simp))
      have hx0 : x.v.events[0]? = some f := by rw [hf]; rfl
      have hhead : (C07.table es).head? = some f := by
        rw [← h.list, hin, h2]; simp [hf]
      refine hfin ⟨some f, some x.v.pid, 0⟩ false ?_ (by rw [hhead])
        (.inr ⟨0, ⟨x.lo, x.v, x.hi, f, hin, rfl, hx0, by rw [h2]; rfl⟩, by rw [List.head?_eq_getElem?]⟩)
      simp only [iterOpen, h0, if_false, seek, hp0, hmn, Res.bind_ok, hx0]

theorem sim_shows (mc : MemCmp) {sp ss base : Nat} (h1 : 0 < ss) (h2 : ss < sp) (h3 : sp < 2 * ss) :
    ∀ (ops : List Op) (es : List Event) (m : Memtable) (s : Ref), Sim mc sp ss es m s →
      (∀ x ∈ es ++ writes ops, Within base x) → Tame sp ss (es ++ writes ops) → AllHarmless sp ss s ops →
      shows mc m ops = .ok (refShows s ops) := by
  intro ops
  induction ops with
  | nil => intros; rfl
  | cons o os ih =>
    intro es m s hm hw ht hs
    have next : ∀ es' m', step mc m o = .ok m' → Sim mc sp ss es' m' (refStep s o) →
        es' ++ writes os = es ++ writes (o :: os) → shows mc m (o :: os) = .ok (refShows s (o :: os)) := by
      intro es' m' hst hsim heq
      have := ih es' m' _ hsim (by rw [heq]; exact hw) (by rw [heq]; exact ht) hs.2
      obtain ⟨it, hit, hcur, _⟩ := hsim.it
      simp only [shows, hst, Res.bind_ok, this, hit, hcur, refShows]
    cases o with
    | write e =>
      have heq : es ++ writes (.write e :: os) = (es ++ [e]) ++ writes os := by simp [writes]
      obtain ⟨m', hst, hsim⟩ := sim_write (base := base) (e := e) hm h1 h2 h3
        (fun x hx => hw x (by rw [heq]; exact List.mem_append_left _ hx))
        (fun pre x post hx => ht pre x (post ++ writes os) (by rw [heq, hx]; simp))
        (fun k hk => hs.1 e k rfl hk)
      exact next _ m' hst hsim heq.symm
    | next =>
      obtain ⟨m', hst, hsim⟩ := sim_next (base := base) hm h1 h2
        (fun x hx => hw x (List.mem_append_left _ hx))
        (fun pre x post hx => ht pre x (post ++ writes os) (by show es ++ writes os = _; rw [hx]; simp))
      exact next _ m' hst hsim rfl

end Verif.C30
