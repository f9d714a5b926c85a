import Verif.Model.Memtable
import Verif.Proofs.RbBalance
import Verif.Proofs.Table

/-! Helper lemmas about the memtable model. -/
namespace Verif.Memtable
open Rb Spec

/-! ### Binary search -/

theorem searchLoop_spec (mc : MemCmp) {base : Nat} {ev : List Event} {key : Event}
    (hs : Ascending ev) (hw : ∀ a ∈ ev, Within base a) (hk : Within base key) :
    ∀ fuel lo hi, hi - lo ≤ fuel → lo ≤ hi → hi ≤ ev.length →
      (∀ i (h : i < ev.length), i < lo → evCmp ev[i] key < 0) →
      (∀ i (h : i < ev.length), hi ≤ i → evCmp ev[i] key > 0) →
      ∃ pos found, searchLoop mc ev key fuel lo hi = .ok (pos, found) ∧ pos ≤ ev.length ∧
        (∀ i (h : i < ev.length), i < pos → evCmp ev[i] key < 0) ∧
        (found = true → ∃ h : pos < ev.length, evCmp ev[pos] key = 0) ∧
        (found = false → ∀ i (h : i < ev.length), pos ≤ i → evCmp ev[i] key > 0) := by
  have hsi := List.pairwise_iff_getElem.1 hs
  intro fuel
  induction fuel with
  | zero =>
    intro lo hi h1 h2 h3 h4 h5
    have : lo = hi := by omega
    subst this
    exact ⟨lo, false, by simp [searchLoop], h3, h4, by simp, fun _ => h5⟩
  | succ n ih =>
    intro lo hi h1 h2 h3 h4 h5
    simp only [searchLoop]
    by_cases hlt : lo < hi
    · rw [if_pos hlt]
      have hmid : lo + (hi - 1 - lo) / 2 < hi := by omega
      generalize hm : lo + (hi - 1 - lo) / 2 = mid at *
      have hml : mid < ev.length := by omega
      rw [List.getElem?_eq_getElem hml]
      simp only
      obtain ⟨c1, c2, c3⟩ := compareInt_within mc (hw ev[mid] (List.getElem_mem hml)) hk
      by_cases hneg : compareInt mc ev[mid] key < 0
      · rw [if_pos hneg]
        apply ih (mid + 1) hi (by omega) (by omega) h3 _ h5
        intro i hi' hlt'
        by_cases he : i = mid
        · subst he; exact c1.1 hneg
        · exact evCmp_trans (hsi i mid hi' hml (by omega)) (c1.1 hneg)
      · rw [if_neg hneg]
        by_cases hpos : compareInt mc ev[mid] key > 0
        · rw [if_pos hpos]
          apply ih lo mid (by omega) (by omega) (by omega) h4 _
          intro i hi' hge
          by_cases he : i = mid
          · subst he; exact c3.1 hpos
          · have a1 := hsi mid i hml hi' (by omega)
            have a2 := c3.1 hpos
            have a3 : evCmp key ev[mid] < 0 := by have := evCmp_swap ev[mid] key; omega
            have a4 := evCmp_trans a3 a1
            have := evCmp_swap ev[i] key; omega
        · rw [if_neg hpos]
          have h0 : evCmp ev[mid] key = 0 := c2.1 (by omega)
          refine ⟨mid, true, rfl, by omega, ?_, fun _ => ⟨hml, h0⟩, by simp⟩
          intro i hi' hlt'
          exact evCmp_lt_eq (hsi i mid hi' hml hlt') h0
    · rw [if_neg hlt]
      have : lo = hi := by omega
      subst this
      exact ⟨lo, false, rfl, h3, h4, by simp, fun _ => h5⟩

/-- The binary search splits the page at the key. -/
theorem search_spec (mc : MemCmp) {base : Nat} {p : Page} {key : Event}
    (hs : Ascending p.events) (hw : ∀ a ∈ p.events, Within base a) (hk : Within base key)
    (hne : p.events ≠ []) :
    (∃ A B, p.events = A ++ B ∧ (∀ a ∈ A, evCmp a key < 0) ∧ (∀ a ∈ B, evCmp a key > 0) ∧
      search mc p key = .ok (A.length, false)) ∨
    (∃ A x B, p.events = A ++ x :: B ∧ (∀ a ∈ A, evCmp a key < 0) ∧ evCmp x key = 0 ∧
      (∀ a ∈ B, evCmp a key > 0) ∧ search mc p key = .ok (A.length, true)) := by
  obtain ⟨init, last, hl⟩ : ∃ init last, p.events = init ++ [last] :=
    ⟨_, _, (List.dropLast_concat_getLast hne).symm⟩
  have hlast : p.events.getLast? = some last := by rw [hl]; simp
  simp only [search, hlast]
  have hlm : last ∈ p.events := by rw [hl]; simp
  obtain ⟨c1, c2, c3⟩ := compare_within mc (hw last hlm) hk
  by_cases hneg : compare mc last key < 0
  · left
    rw [if_pos hneg]
    refine ⟨p.events, [], by simp, ?_, by simp, rfl⟩
    intro a ha
    rw [hl] at ha hs
    simp at ha
    rcases ha with ha | rfl
    · have := (List.pairwise_append.1 hs).2.2 a ha last (by simp)
      exact evCmp_trans this (c1.1 hneg)
    · exact c1.1 hneg
  · rw [if_neg hneg]
    obtain ⟨pos, found, h1, h2, h3, h4, h5⟩ := searchLoop_spec mc hs hw hk p.events.length 0
      p.events.length (by omega) (by omega) (by omega) (by simp) (by intro i h h'; omega)
    rw [h1]
    have htake : ∀ a ∈ p.events.take pos, evCmp a key < 0 := by
      intro a ha
      obtain ⟨i, hi, rfl⟩ := List.mem_iff_getElem.1 ha
      rw [List.getElem_take]
      rw [List.length_take] at hi
      exact h3 i (by omega) (by omega)
    cases found with
    | false =>
      left
      refine ⟨p.events.take pos, p.events.drop pos, by simp, htake, ?_, ?_⟩
      · intro a ha
        obtain ⟨i, hi, rfl⟩ := List.mem_iff_getElem.1 ha
        rw [List.getElem_drop]
        rw [List.length_drop] at hi
        exact h5 rfl (pos + i) (by omega) (by omega)
      · rw [List.length_take, Nat.min_eq_left h2]
    | true =>
      right
      obtain ⟨hlt, h0⟩ := h4 rfl
      refine ⟨p.events.take pos, p.events[pos], p.events.drop (pos + 1), ?_, htake, h0, ?_, ?_⟩
      · rw [← List.drop_eq_getElem_cons hlt]; simp
      · intro a ha
        obtain ⟨i, hi, rfl⟩ := List.mem_iff_getElem.1 ha
        rw [List.getElem_drop]
        rw [List.length_drop] at hi
        have := List.pairwise_iff_getElem.1 hs pos (pos + 1 + i) hlt (by omega) (by omega)
        have e1 := evCmp_congr (c := p.events[pos + 1 + i]) h0
        have := evCmp_swap p.events[pos + 1 + i] key
        omega
      · rw [List.length_take, Nat.min_eq_left h2]

/-! ### The invariant -/

/-- All events of a list of pages, in order. -/
def flat (ps : List Page) : List Event := ps.flatMap (·.events)

@[simp] theorem flat_nil : flat [] = [] := rfl
@[simp] theorem flat_cons (p : Page) (ps : List Page) : flat (p :: ps) = p.events ++ flat ps := rfl
@[simp] theorem flat_append (ps qs : List Page) : flat (ps ++ qs) = flat ps ++ flat qs := by
  simp [flat]

/-- `m` stores exactly the ascending list `L` with ids in one window. -/
structure Inv (base : Nat) (m : Memtable) (L : List Event) : Prop where
  valid : Valid m.tree
  page : ∀ p ∈ inorder m.tree, p.events ≠ [] ∧ p.events.length ≤ m.sizePage ∧ p.pid < m.nextPid
  pids : (inorder m.tree).Pairwise (fun p q => p.pid ≠ q.pid)
  list : flat (inorder m.tree) = L
  asc : Ascending L
  within : ∀ a ∈ L, Within base a
  cntp : m.countPages = (inorder m.tree).length
  cnt : m.count = L.length
  cfg : 0 < m.sizeSplit ∧ m.sizeSplit < m.sizePage

/-- The last of several pages keeps at least the remainder of a split; true as
long as nothing is removed. -/
def LastFull (m : Memtable) : Prop :=
  ∀ q p r, inorder m.tree = q :: r ++ [p] → m.sizePage - m.sizeSplit ≤ p.events.length

/-- The key belongs to the last page (or there is at most one page). -/
def Routed (m : Memtable) (key : Event) : Prop :=
  m.countPages ≤ 1 ∨ ∃ lo p, inorder m.tree = lo ++ [p] ∧
    ∀ e, p.events.head? = some e → evCmp e key ≤ 0

theorem inv_init (base : Nat) {sp ss : Nat} (h1 : 0 < ss) (h2 : ss < sp) :
    Inv base (init sp ss) [] where
  valid := ⟨0, .nil⟩
  page := by simp [init]
  pids := by simp [init]
  list := rfl
  asc := by simp [Ascending]
  within := by simp
  cntp := rfl
  cnt := rfl
  cfg := ⟨h1, h2⟩

theorem lastFull_init (sp ss : Nat) : LastFull (init sp ss) := by
  intro q p r h; simp [init] at h

theorem valid_setV {α : Type} {x : Loc α} (h : Valid x.tree) (v : α) :
    Valid ({ x with v := v } : Loc α).tree := by
  obtain ⟨c, hh, hp, ht, hb⟩ := parts_of_zip h
  have ht' : RB c hh (.node x.c x.l v x.r) := by
    generalize x.c = xc at ht ⊢
    cases ht with
    | red a b => exact .red a b
    | black a b => exact .black a b
  cases c with
  | black => exact zip_black hp ht'
  | red => exact zip_any hp (hb rfl) ht'

/-- The first event of each page compared with a key. -/
def headCmp (mc : MemCmp) (key : Event) (p : Page) : Int :=
  match p.events with
  | e :: _ => compareInt mc e key
  | [] => 0

theorem pageCompare_eq (mc : MemCmp) (key : Event) {p : Page} (h : p.events ≠ []) :
    pageCompare mc key p = .ok (headCmp mc key p) := by
  unfold pageCompare headCmp
  split
  · next h' => simp [h']
  · next h' => exact absurd h' h

theorem Inv.page_split {base : Nat} {m : Memtable} {L : List Event} (h : Inv base m L)
    {lo hi : List Page} {p : Page} (hin : inorder m.tree = lo ++ p :: hi) :
    L = flat lo ++ p.events ++ flat hi ∧ Ascending p.events ∧
      (∀ a ∈ p.events, Within base a) ∧
      (∀ a ∈ flat lo, ∀ b ∈ p.events, evCmp a b < 0) ∧
      (∀ a ∈ p.events, ∀ b ∈ flat hi, evCmp a b < 0) := by
  have hL : L = flat lo ++ p.events ++ flat hi := by rw [← h.list, hin]; simp
  have ha := h.asc
  have hw := h.within
  rw [hL] at ha hw
  unfold Ascending at ha
  rw [List.pairwise_append, List.pairwise_append] at ha
  obtain ⟨⟨a1, a2, a3⟩, a4, a5⟩ := ha
  exact ⟨hL, a2, fun a ha => hw a (by simp [ha]), a3,
    fun a ha b hb => a5 a (by simp [ha]) b hb⟩

theorem headSignMono (mc : MemCmp) {base : Nat} {key : Event} (hk : Within base key) {ps : List Page}
    (hne : ∀ p ∈ ps, p.events ≠ []) (hw : ∀ a ∈ flat ps, Within base a) (ha : Ascending (flat ps)) :
    SignMono (headCmp mc key) ps := by
  induction ps with
  | nil => exact List.Pairwise.nil
  | cons p ps ih =>
    simp only [flat_cons] at ha hw
    unfold Ascending at ha
    rw [List.pairwise_append] at ha
    obtain ⟨a1, a2, a3⟩ := ha
    refine List.Pairwise.cons ?_ (ih (fun q hq => hne q (by simp [hq]))
      (fun a ha => hw a (by simp [ha])) a2)
    intro q hq
    have hp := hne p (by simp)
    have hq' := hne q (by simp [hq])
    obtain ⟨e, es, he⟩ := List.exists_cons_of_ne_nil hp
    obtain ⟨f, fs, hf⟩ := List.exists_cons_of_ne_nil hq'
    have hfm : f ∈ flat ps := List.mem_flatMap.2 ⟨q, hq, by rw [hf]; simp⟩
    have hef := a3 e (by rw [he]; simp) f hfm
    obtain ⟨c1, c2, c3⟩ := compareInt_within mc (hw e (by rw [he]; simp)) hk
    obtain ⟨d1, d2, d3⟩ := compareInt_within mc (hw f (by simp [hfm])) hk
    simp only [headCmp, he, hf]
    refine ⟨fun h => ?_, fun h => ?_, fun h => ?_, fun h => ?_⟩
    · rw [d3]; rw [c3] at h
      have h1 : evCmp key e < 0 := by have := evCmp_swap e key; omega
      have h2 := evCmp_trans h1 hef
      have := evCmp_swap f key; omega
    · rw [c1]; rw [d1] at h; exact evCmp_trans hef h
    · rw [d3]; rw [c2] at h
      have h2 := evCmp_congr (c := f) h
      have := evCmp_swap f key; omega
    · rw [c1]; rw [d2] at h; exact evCmp_lt_eq hef h

/-- Under `Routed`, the page found is the last one and everything before it is
smaller than the key. -/
theorem searchPage_spec (mc : MemCmp) {base : Nat} {m : Memtable} {L : List Event}
    (h : Inv base m L) {key : Event} (hk : Within base key) (hr : Routed m key)
    (h0 : m.countPages ≠ 0) :
    ∃ x : Loc Page, searchPage mc m key = .ok x ∧ x.tree = m.tree ∧
      inorder m.tree = x.lo ++ [x.v] ∧ x.hi = [] ∧ x.r = .nil ∧ x.v.events ≠ [] ∧
      (∀ a ∈ flat x.lo, evCmp a key < 0) := by
  have rnil : ∀ x : Loc Page, x.hi = [] → x.r = .nil := by
    intro x hx
    simp only [Loc.hi, List.append_eq_nil_iff] at hx
    cases hxr : x.r with
    | nil => rfl
    | node c l v r => rw [hxr] at hx; simp at hx
  by_cases h1 : m.countPages = 1
  · simp only [searchPage, h1, if_true]
    have hlen := h.cntp
    cases hm : Rb.min m.tree with
    | none =>
      rw [min_none hm] at hlen; simp at hlen; omega
    | some x =>
      obtain ⟨e1, e2⟩ := min_some hm
      have hin := x.inorder_eq
      rw [e1, e2] at hin
      rw [hin] at hlen
      have hhi : x.hi = [] := by
        simp at hlen; exact List.length_eq_zero_iff.1 (by omega)
      rw [hhi] at hin
      refine ⟨x, rfl, e1, by rw [hin, e2], hhi, rnil x hhi,
        (h.page x.v (by rw [hin]; simp)).1, by rw [e2]; simp⟩
  · rcases hr with hr | ⟨lo, p, hlp, hhead⟩
    · omega
    · have hmono := headSignMono mc hk (ps := inorder m.tree) (fun p hp => (h.page p hp).1)
        (by rw [h.list]; exact h.within) (by rw [h.list]; exact h.asc)
      have hcmp : ∀ a ∈ inorder m.tree, pageCompare mc key a = .ok (headCmp mc key a) :=
        fun a ha => pageCompare_eq mc key (h.page a ha).1
      have hpne := (h.page p (by rw [hlp]; simp)).1
      obtain ⟨e, es, he⟩ := List.exists_cons_of_ne_nil hpne
      have hle : evCmp e key ≤ 0 := hhead e (by rw [he]; rfl)
      obtain ⟨pL, pasc, pw, plo, _⟩ := h.page_split (lo := lo) (hi := []) (p := p) hlp
      obtain ⟨c1, c2, c3⟩ := compareInt_within mc (pw e (by rw [he]; simp)) hk
      have hpc : headCmp mc key p ≤ 0 := by
        simp only [headCmp, he]; omega
      rcases get_spec hcmp hmono with ⟨ht, hg⟩ | ⟨y, hg, hy, hin, hlo, hhi, hr', hl'⟩
      · rw [ht] at hlp; simp at hlp
      · -- y is the last page
        have hyhi : y.hi = [] := by
          rcases List.eq_nil_or_concat y.hi with hn | ⟨zs, z, hz⟩
          · exact hn
          · exfalso
            rw [hz] at hin
            rw [hin] at hlp
            have hpz : p = z := by
              have h' : (y.lo ++ y.v :: zs) ++ [z] = lo ++ [p] := by
                simpa [List.concat_eq_append] using hlp
              have := List.append_inj_right' h' rfl
              simpa using this.symm
            by_cases hneg : headCmp mc key y.v < 0
            · have := (hr' hneg).2 p (by rw [hz, hpz]; simp)
              omega
            · have := hhi (by omega) p (by rw [hz, hpz]; simp)
              omega
        rw [hyhi] at hin
        have hyp : y.v = p ∧ y.lo = lo := by
          rw [hin] at hlp
          have h1 := List.append_inj_right' hlp rfl
          have h2 := List.append_inj_left' hlp rfl
          simp at h1
          exact ⟨h1, h2⟩
        refine ⟨y, ?_, hy, hin, hyhi, rnil y hyhi, by rw [hyp.1]; exact hpne, ?_⟩
        · simp only [searchPage, h1, if_false, hg, Res.bind_ok]
          rw [hyp.1, if_neg (by omega)]
        · intro a ha
          rw [hyp.2] at ha
          have := plo a ha e (by rw [he]; simp)
          rcases Int.lt_or_eq_of_le hle with h' | h'
          · exact evCmp_trans this h'
          · exact evCmp_lt_eq this h'

end Verif.Memtable
