import Verif.Spec.C90

/-! C90: lemmas. -/

namespace Verif.C90
open Verif.Conn

/-- What holds at every point. -/
structure Inv (s : St) : Prop where
  count : s.count = s.list.length
  nodup : s.list.Nodup
  liveNodup : s.live.Nodup
  one : ∀ r r' h, Has s r h → Has s r' h → r = r'
  out : ∀ r h, Has s r h → h ∈ s.live ∧ h ∉ s.list
  all : ∀ h ∈ s.live, h ∈ s.list ∨ ∃ r, Has s r h
  cached : ∀ h ∈ s.list, h ∈ s.live
  running : ∀ h, h ∈ s.running → ∃ r, s.pc r = .run h
  runNodup : s.running.Nodup
  runs : ∀ r h, s.pc r = .run h → h ∈ s.running
  closed : s.closed = true → s.live = []

theorem has_at {s : St} {r r' : Nat} {p : Pc} {h : Nat} :
    Has (s.at r p) r' h ↔
      if r' = r then p = .held h ∨ p = .run h ∨ ∃ ok, p = .after h ok else Has s r' h := by
  unfold Has St.at
  by_cases hr : r' = r <;> simp [hr]

theorem pc_at {s : St} {r r' : Nat} {p : Pc} :
    (s.at r p).pc r' = if r' = r then p else s.pc r' := rfl

theorem inv_init : Inv init := by
  constructor <;> simp [init, Has]

theorem has_congr {s t : St} (h : t.pc = s.pc) {r x : Nat} : Has t r x ↔ Has s r x := by
  unfold Has; rw [h]

theorem inv_pop {s s' : St} (hi : Inv s) {r : Nat} (h : pop r s = .ok s') : Inv s' := by
  unfold pop at h
  split at h
  · rename_i hp
    split at h
    · split at h
      · cases h
      · rename_i x hs hl
        injection h with h; subst h
        have hc := hi.count
        have hn := hi.nodup
        rw [hl] at hn hc
        rw [List.nodup_cons] at hn
        have hx : x ∈ s.live := hi.cached x (by rw [hl]; simp)
        have hno : ∀ r', ¬ Has s r' x := fun r' h' => (hi.out r' x h').2 (by rw [hl]; simp)
        refine ⟨?_, hn.2, hi.liveNodup, ?_, ?_, ?_, ?_, ?_, hi.runNodup, ?_, hi.closed⟩
        · show s.count - 1 = hs.length
          simp at hc; omega
        · intro a b y ha hb
          rw [has_at] at ha hb
          by_cases e1 : a = r <;> by_cases e2 : b = r
          · rw [e1, e2]
          · simp [e1, e2] at ha hb
            subst ha
            exact absurd hb (hno b)
          · simp [e1, e2] at ha hb
            subst hb
            exact absurd ha (hno a)
          · simp [e1, e2] at ha hb
            exact hi.one a b y ha hb
        · intro a y ha
          rw [has_at] at ha
          by_cases e1 : a = r
          · simp [e1] at ha; subst ha
            exact ⟨hx, hn.1⟩
          · simp [e1] at ha
            have := hi.out a y ha
            rw [hl] at this
            exact ⟨this.1, fun h => this.2 (List.mem_cons_of_mem _ h)⟩
        · intro y hy
          by_cases e : y = x
          · right; exact ⟨r, by rw [has_at]; simp [e]⟩
          · rcases hi.all y hy with h | ⟨a, ha⟩
            · rw [hl] at h
              rcases List.mem_cons.mp h with h | h
              · exact absurd h e
              · exact .inl h
            · right
              refine ⟨a, ?_⟩
              rw [has_at]
              have : a ≠ r := by rintro rfl; simp [Has, hp] at ha
              simp [this]; exact ha
        · intro y hy
          exact hi.cached y (by rw [hl]; exact List.mem_cons_of_mem _ hy)
        · intro y hy
          obtain ⟨a, ha⟩ := hi.running y hy
          have : a ≠ r := by rintro rfl; rw [hp] at ha; cases ha
          exact ⟨a, by rw [pc_at, if_neg this]; exact ha⟩
        · intro a y ha
          rw [pc_at] at ha
          split at ha
          · cases ha
          · exact hi.runs a y ha
    · injection h with h; subst h
      refine ⟨hi.count, hi.nodup, hi.liveNodup, ?_, ?_, ?_, hi.cached, ?_, hi.runNodup, ?_, hi.closed⟩
      · intro a b y ha hb
        rw [has_at] at ha hb
        by_cases e1 : a = r <;> by_cases e2 : b = r <;> simp [e1, e2] at ha hb ⊢
        exact hi.one a b y ha hb
      · intro a y ha
        rw [has_at] at ha
        by_cases e1 : a = r <;> simp [e1] at ha
        exact hi.out a y ha
      · intro y hy
        rcases hi.all y hy with h | ⟨a, ha⟩
        · exact .inl h
        · right
          refine ⟨a, ?_⟩
          rw [has_at]
          have : a ≠ r := by rintro rfl; simp [Has, hp] at ha
          simp [this]; exact ha
      · intro y hy
        obtain ⟨a, ha⟩ := hi.running y hy
        have : a ≠ r := by rintro rfl; rw [hp] at ha; cases ha
        exact ⟨a, by rw [pc_at, if_neg this]; exact ha⟩
      · intro a y ha
        rw [pc_at] at ha
        split at ha
        · cases ha
        · exact hi.runs a y ha
  · cases h

/-- A request without a handle goes to a place without one. -/
theorem inv_none {s : St} (hi : Inv s) {r : Nat} {p : Pc} (h0 : ∀ x, ¬ Has s r x)
    (hp : p = .idle ∨ p = .empty) : Inv (s.at r p) := by
  have hno : ∀ a x, Has (s.at r p) a x ↔ Has s a x := by
    intro a x
    rw [has_at]
    by_cases e : a = r
    · subst e
      rcases hp with rfl | rfl <;> simp [h0]
    · simp [e]
  refine ⟨hi.count, hi.nodup, hi.liveNodup, ?_, ?_, ?_, hi.cached, ?_, hi.runNodup, ?_, hi.closed⟩
  · intro a b y ha hb
    exact hi.one a b y ((hno _ _).mp ha) ((hno _ _).mp hb)
  · intro a y ha
    exact hi.out a y ((hno _ _).mp ha)
  · intro y hy
    rcases hi.all y hy with h | ⟨a, ha⟩
    · exact .inl h
    · exact .inr ⟨a, (hno _ _).mpr ha⟩
  · intro y hy
    obtain ⟨a, ha⟩ := hi.running y hy
    have : a ≠ r := by rintro rfl; exact h0 y (.inr (.inl ha))
    exact ⟨a, by rw [pc_at, if_neg this]; exact ha⟩
  · intro a y ha
    rw [pc_at] at ha
    split at ha
    · rcases hp with rfl | rfl <;> cases ha
    · exact hi.runs a y ha

theorem inv_alloc {s s' : St} (hi : Inv s) (ho : s.closed = false) {r : Nat} {o : Option Nat}
    (h : alloc r o s = .ok s') : Inv s' := by
  unfold alloc at h
  split at h
  · rename_i hp
    injection h with h; subst h
    exact inv_none hi (by intro x; simp [Has, hp]) (.inl rfl)
  · rename_i x hp
    split at h
    · cases h
    · rename_i hx
      injection h with h; subst h
      have hno : ∀ a, ¬ Has s a x := fun a ha => hx (hi.out a x ha).1
      have hr : ∀ y, ¬ Has s r y := by intro y; simp [Has, hp]
      refine ⟨hi.count, hi.nodup, List.nodup_cons.mpr ⟨hx, hi.liveNodup⟩, ?_, ?_, ?_, ?_, ?_,
        hi.runNodup, ?_, ?_⟩
      · intro a b y ha hb
        rw [has_at] at ha hb
        by_cases e1 : a = r <;> by_cases e2 : b = r
        · rw [e1, e2]
        · simp [e1, e2] at ha hb; subst ha; exact absurd hb (hno b)
        · simp [e1, e2] at ha hb; subst hb; exact absurd ha (hno a)
        · simp [e1, e2] at ha hb; exact hi.one a b y ha hb
      · intro a y ha
        rw [has_at] at ha
        by_cases e1 : a = r
        · simp [e1] at ha; subst ha
          exact ⟨List.mem_cons_self, fun h => hx (hi.cached _ h)⟩
        · simp [e1] at ha
          exact ⟨List.mem_cons_of_mem _ (hi.out a y ha).1, (hi.out a y ha).2⟩
      · intro y hy
        rcases List.mem_cons.mp hy with rfl | hy
        · exact .inr ⟨r, by rw [has_at]; simp⟩
        · rcases hi.all y hy with h | ⟨a, ha⟩
          · exact .inl h
          · have : a ≠ r := by rintro rfl; exact hr y ha
            exact .inr ⟨a, by rw [has_at, if_neg this]; exact ha⟩
      · intro y hy
        exact List.mem_cons_of_mem _ (hi.cached y hy)
      · intro y hy
        obtain ⟨a, ha⟩ := hi.running y hy
        have : a ≠ r := by rintro rfl; rw [hp] at ha; cases ha
        exact ⟨a, by rw [pc_at, if_neg this]; exact ha⟩
      · intro a y ha
        rw [pc_at] at ha
        split at ha
        · cases ha
        · exact hi.runs a y ha
      · intro h
        have : s.closed = true := h
        rw [ho] at this; cases this
  · cases h

/-- A request goes on with the handle it has. -/
theorem has_same {s : St} {r x : Nat} {p : Pc} (h0 : Has s r x)
    (hp : p = .held x ∨ p = .run x ∨ ∃ ok, p = .after x ok) (a y : Nat) :
    Has (s.at r p) a y ↔ Has s a y := by
  rw [has_at]
  by_cases e : a = r
  · subst e
    rw [if_pos rfl]
    have h1 : (p = .held y ∨ p = .run y ∨ ∃ ok, p = .after y ok) ↔ x = y := by
      rcases hp with rfl | rfl | ⟨ok, rfl⟩ <;> simp
    have h2 : Has s a y ↔ x = y := by
      unfold Has at h0 ⊢
      rcases h0 with h | h | ⟨ok, h⟩ <;> simp [h]
    rw [h1, h2]
  · rw [if_neg e]

theorem inv_start {s s' : St} (hi : Inv s) {r : Nat} (h : start r s = .ok s') : Inv s' := by
  unfold start at h
  split at h
  · rename_i x hp
    split at h
    · cases h
    · rename_i hx
      split at h
      · injection h with h; subst h
        have hs := has_same (s := { s with running := x :: s.running }) (r := r) (x := x)
          (p := .run x) (.inl hp) (.inr (.inl rfl))
        refine ⟨hi.count, hi.nodup, hi.liveNodup, ?_, ?_, ?_, hi.cached, ?_,
          List.nodup_cons.mpr ⟨hx, hi.runNodup⟩, ?_, hi.closed⟩
        · intro a b y ha hb
          exact hi.one a b y ((hs _ _).mp ha) ((hs _ _).mp hb)
        · intro a y ha
          exact hi.out a y ((hs _ _).mp ha)
        · intro y hy
          rcases hi.all y hy with h | ⟨a, ha⟩
          · exact .inl h
          · exact .inr ⟨a, (hs _ _).mpr ha⟩
        · intro y hy
          rcases List.mem_cons.mp hy with rfl | hy
          · exact ⟨r, by rw [pc_at, if_pos rfl]⟩
          · obtain ⟨a, ha⟩ := hi.running y hy
            have : a ≠ r := by rintro rfl; rw [hp] at ha; cases ha
            exact ⟨a, by rw [pc_at, if_neg this]; exact ha⟩
        · intro a y ha
          rw [pc_at] at ha
          split at ha
          · injection ha with ha; subst ha; exact List.mem_cons_self
          · exact List.mem_cons_of_mem _ (hi.runs a y ha)
      · cases h
  · cases h

theorem inv_done {s s' : St} (hi : Inv s) {r : Nat} {ok : Bool} (h : done r ok s = .ok s') :
    Inv s' := by
  unfold done at h
  split at h
  · rename_i x hp
    injection h with h; subst h
    have hs := has_same (s := { s with running := s.running.erase x }) (r := r) (x := x)
      (p := .after x ok) (.inr (.inl hp)) (.inr (.inr ⟨ok, rfl⟩))
    refine ⟨hi.count, hi.nodup, hi.liveNodup, ?_, ?_, ?_, hi.cached, ?_,
      hi.runNodup.erase _, ?_, hi.closed⟩
    · intro a b y ha hb
      exact hi.one a b y ((hs _ _).mp ha) ((hs _ _).mp hb)
    · intro a y ha
      exact hi.out a y ((hs _ _).mp ha)
    · intro y hy
      rcases hi.all y hy with h | ⟨a, ha⟩
      · exact .inl h
      · exact .inr ⟨a, (hs _ _).mpr ha⟩
    · intro y hy
      have hy' := (hi.runNodup.mem_erase_iff).mp hy
      obtain ⟨a, ha⟩ := hi.running y hy'.2
      have : a ≠ r := by
        rintro rfl; rw [hp] at ha; injection ha with ha; exact hy'.1 ha.symm
      exact ⟨a, by rw [pc_at, if_neg this]; exact ha⟩
    · intro a y ha
      rw [pc_at] at ha
      split at ha
      · cases ha
      · rename_i hne
        refine (hi.runNodup.mem_erase_iff).mpr ⟨?_, hi.runs a y ha⟩
        rintro rfl
        exact hne (hi.one a r y (.inr (.inl ha)) (.inr (.inl hp)))
  · cases h

/-- A request that is not running gives its handle away. -/
theorem has_left {s : St} (hi : Inv s) {r x : Nat} (h0 : Has s r x) (a y : Nat) :
    Has (s.at r .idle) a y ↔ Has s a y ∧ y ≠ x := by
  rw [has_at]
  by_cases e : a = r
  · subst e
    rw [if_pos rfl]
    constructor
    · intro h; simp at h
    · rintro ⟨h, hne⟩
      exfalso; apply hne
      unfold Has at h0 h
      rcases h0 with h0 | h0 | ⟨o, h0⟩ <;> rw [h0] at h <;> simp at h <;> exact h.symm
  · rw [if_neg e]
    constructor
    · intro h
      refine ⟨h, ?_⟩
      rintro rfl
      exact e (hi.one a r y h h0)
    · exact fun h => h.1

theorem inv_give {s s' : St} (hi : Inv s) {r : Nat} (h : give r s = .ok s') : Inv s' := by
  unfold give at h
  split at h
  · rename_i x hp
    split at h
    · cases h
    · rename_i hx
      injection h with h; subst h
      have h0 : Has s r x := .inr (.inr ⟨true, hp⟩)
      have hs : ∀ a y, Has ({ s with list := s.list ++ [x], count := s.count + 1 }.at r .idle) a y ↔
          Has s a y ∧ y ≠ x := fun a y => has_left hi h0 a y
      refine ⟨?_, ?_, hi.liveNodup, ?_, ?_, ?_, ?_, ?_, hi.runNodup, ?_, hi.closed⟩
      · show s.count + 1 = (s.list ++ [x]).length
        have := hi.count
        simp; omega
      · show (s.list ++ [x]).Nodup
        refine List.nodup_append.mpr ⟨hi.nodup, by simp, ?_⟩
        intro a ha b hb
        rw [List.mem_singleton] at hb
        subst hb
        rintro rfl
        exact hx ha
      · intro a b y ha hb
        exact hi.one a b y ((hs _ _).mp ha).1 ((hs _ _).mp hb).1
      · intro a y ha
        have ha := (hs _ _).mp ha
        refine ⟨(hi.out a y ha.1).1, ?_⟩
        intro h
        rcases List.mem_append.mp h with h | h
        · exact (hi.out a y ha.1).2 h
        · exact ha.2 (List.mem_singleton.mp h)
      · intro y hy
        by_cases e : y = x
        · left; rw [e]; show x ∈ s.list ++ [x]; simp
        · rcases hi.all y hy with h | ⟨a, ha⟩
          · exact .inl (List.mem_append_left _ h)
          · exact .inr ⟨a, (hs _ _).mpr ⟨ha, e⟩⟩
      · intro y hy
        rcases List.mem_append.mp hy with h | h
        · exact hi.cached y h
        · rw [List.mem_singleton] at h; subst h; exact (hi.out r y h0).1
      · intro y hy
        obtain ⟨a, ha⟩ := hi.running y hy
        have : a ≠ r := by rintro rfl; rw [hp] at ha; cases ha
        exact ⟨a, by rw [pc_at, if_neg this]; exact ha⟩
      · intro a y ha
        rw [pc_at] at ha
        split at ha
        · cases ha
        · exact hi.runs a y ha
  · cases h

theorem cleanup_ok {s : St} (hi : Inv s) {r x : Nat} (h0 : Has s r x)
    (hn : ∀ y, s.pc r ≠ .run y) : cleanup x s = .ok { s with live := s.live.erase x } := by
  unfold cleanup
  have h1 : x ∉ s.running := by
    intro h
    obtain ⟨a, ha⟩ := hi.running x h
    have := hi.one a r x (.inr (.inl ha)) h0
    subst this
    exact hn x ha
  rw [if_neg h1, if_pos (hi.out r x h0).1]

theorem inv_left {s : St} (hi : Inv s) {r x : Nat} (h0 : Has s r x)
    (hn : ∀ y, s.pc r ≠ .run y) : Inv ({ s with live := s.live.erase x }.at r .idle) := by
  have hs : ∀ a y, Has ({ s with live := s.live.erase x }.at r .idle) a y ↔
      Has s a y ∧ y ≠ x := fun a y => has_left hi h0 a y
  refine ⟨hi.count, hi.nodup, hi.liveNodup.erase _, ?_, ?_, ?_, ?_, ?_, hi.runNodup, ?_, ?_⟩
  · intro a b y ha hb
    exact hi.one a b y ((hs _ _).mp ha).1 ((hs _ _).mp hb).1
  · intro a y ha
    have ha := (hs _ _).mp ha
    exact ⟨(hi.liveNodup.mem_erase_iff).mpr ⟨ha.2, (hi.out a y ha.1).1⟩, (hi.out a y ha.1).2⟩
  · intro y hy
    have hy := (hi.liveNodup.mem_erase_iff).mp hy
    rcases hi.all y hy.2 with h | ⟨a, ha⟩
    · exact .inl h
    · exact .inr ⟨a, (hs _ _).mpr ⟨ha, hy.1⟩⟩
  · intro y hy
    refine (hi.liveNodup.mem_erase_iff).mpr ⟨?_, hi.cached y hy⟩
    rintro rfl
    exact (hi.out r y h0).2 hy
  · intro y hy
    obtain ⟨a, ha⟩ := hi.running y hy
    have : a ≠ r := by rintro rfl; exact hn y ha
    exact ⟨a, by rw [pc_at, if_neg this]; exact ha⟩
  · intro a y ha
    rw [pc_at] at ha
    split at ha
    · cases ha
    · exact hi.runs a y ha
  · intro h
    have : s.live = [] := hi.closed h
    show s.live.erase x = []
    rw [this]; rfl

theorem drop_ok {s : St} (hi : Inv s) (r : Nat) :
    (∃ m, drop r s = .err m) ∨ ∃ x, Has s r x ∧ (∀ y, s.pc r ≠ .run y) ∧
      drop r s = .ok ({ s with live := s.live.erase x }.at r .idle) := by
  unfold drop
  split
  · rename_i x hp
    right
    have hn : ∀ y, s.pc r ≠ .run y := by intro y; rw [hp]; nofun
    refine ⟨x, .inl hp, hn, ?_⟩
    rw [cleanup_ok hi (.inl hp) hn]; rfl
  · rename_i x o hp
    right
    have hn : ∀ y, s.pc r ≠ .run y := by intro y; rw [hp]; nofun
    refine ⟨x, .inr (.inr ⟨o, hp⟩), hn, ?_⟩
    rw [cleanup_ok hi (.inr (.inr ⟨o, hp⟩)) hn]; rfl
  · exact .inl ⟨_, rfl⟩

/-- The loop of s3_free with all requests over. -/
theorem cleanup_all : ∀ (l : List Nat) (s : St), s.running = [] → l.Nodup → s.live.Nodup →
    (∀ h ∈ l, h ∈ s.live) → ∃ s', cleanupAll l s = .ok s' ∧ s'.running = [] ∧ s'.pc = s.pc ∧
      s'.live.Nodup ∧ ∀ h, h ∈ s'.live ↔ h ∈ s.live ∧ h ∉ l := by
  intro l
  induction l with
  | nil => intro s h _ hl _; exact ⟨s, rfl, h, rfl, hl, by simp⟩
  | cons x l ih =>
    intro s hr hn hl hm
    rw [List.nodup_cons] at hn
    have hc : cleanup x s = .ok { s with live := s.live.erase x } := by
      unfold cleanup
      rw [hr, if_neg (by simp), if_pos (hm x (by simp))]
    obtain ⟨s', h1, h2, h3, h4, h5⟩ := ih { s with live := s.live.erase x } hr hn.2 (hl.erase _) (by
      intro y hy
      refine (hl.mem_erase_iff).mpr ⟨?_, hm y (by simp [hy])⟩
      rintro rfl; exact hn.1 hy)
    refine ⟨s', by simp only [cleanupAll, hc, Res.bind, h1], h2, h3, h4, ?_⟩
    intro y
    rw [h5 y]
    show y ∈ s.live.erase x ∧ y ∉ l ↔ _
    rw [hl.mem_erase_iff]
    simp only [List.mem_cons, not_or]
    constructor
    · rintro ⟨⟨a, b⟩, c⟩; exact ⟨b, a, c⟩
    · rintro ⟨a, b, c⟩; exact ⟨⟨b, a⟩, c⟩

theorem close_ok {s : St} (hi : Inv s) (hs : Still s) : ∃ s', (cleanupAll s.list s).map
    (fun s => ({ s with list := [], count := 0, closed := true } : St)) = .ok s' ∧ Inv s' := by
  have hno : ∀ r h, ¬ Has s r h := by intro r h; simp [Has, hs r]
  have hr : s.running = [] := by
    apply List.eq_nil_iff_forall_not_mem.mpr
    intro h hh
    obtain ⟨r, h'⟩ := hi.running h hh
    rw [hs r] at h'; cases h'
  obtain ⟨t, h1, h2, h3, _, h5⟩ := cleanup_all s.list s hr hi.nodup hi.liveNodup hi.cached
  have hl : t.live = [] := by
    apply List.eq_nil_iff_forall_not_mem.mpr
    intro h hh
    obtain ⟨h6, h7⟩ := (h5 h).mp hh
    rcases hi.all h h6 with h | ⟨r, h⟩
    · exact h7 h
    · exact hno _ _ h
  refine ⟨_, by rw [h1]; rfl, ?_⟩
  have hno' : ∀ r h, ¬ Has ({ t with list := [], count := 0, closed := true } : St) r h := by
    intro r h hh
    exact hno r h ((has_congr (s := s) h3).mp hh)
  have hp : ∀ r, t.pc r = .idle := by rw [h3]; exact hs
  refine ⟨rfl, by simp, ?_, ?_, ?_, ?_, ?_, ?_, ?_, ?_, ?_⟩
  · simp [hl]
  · intro a b y ha; exact absurd ha (hno' _ _)
  · intro a y ha; exact absurd ha (hno' _ _)
  · intro y hy; simp [hl] at hy
  · intro y hy; cases hy
  · intro y hy; simp [h2] at hy
  · simp [h2]
  · intro a y ha
    have : t.pc a = .run y := ha
    rw [hp a] at this; cases this
  · intro _; exact hl

/-- One step is defined, and what holds before holds after. -/
theorem inv_step {s : St} (hi : Inv s) (ho : s.closed = false) (e : Ev)
    (hc : e = .close → Still s) :
    (∃ m, step s e = .err m) ∨ ∃ s', step s e = .ok s' ∧ Inv s' := by
  have key : ∀ {x : Res St}, (∀ t, x = .ok t → Inv t) →
      ((∃ m, x = .err m) ∨ ∃ t, x = .ok t) → (∃ m, x = .err m) ∨ ∃ s', x = .ok s' ∧ Inv s' := by
    intro x h1 h2
    rcases h2 with h | ⟨t, h⟩
    · exact .inl h
    · exact .inr ⟨t, h, h1 t h⟩
  unfold step
  rw [ho, if_neg (by simp)]
  cases e with
  | pop r =>
    refine key (fun t h => inv_pop hi h) ?_
    show (∃ m, pop r s = .err m) ∨ ∃ t, pop r s = .ok t
    unfold pop
    split
    · split
      · rename_i hn
        split
        · rename_i hl
          have := hi.count
          rw [hl] at this
          simp at this; omega
        · exact .inr ⟨_, rfl⟩
      · exact .inr ⟨_, rfl⟩
    · exact .inl ⟨_, rfl⟩
  | alloc r h =>
    refine key (fun t h => inv_alloc hi ho h) ?_
    show (∃ m, alloc r h s = .err m) ∨ ∃ t, alloc r h s = .ok t
    unfold alloc
    split
    · exact .inr ⟨_, rfl⟩
    · split
      · exact .inl ⟨_, rfl⟩
      · exact .inr ⟨_, rfl⟩
    · exact .inl ⟨_, rfl⟩
  | begin r =>
    refine key (fun t h => inv_start hi h) ?_
    show (∃ m, start r s = .err m) ∨ ∃ t, start r s = .ok t
    unfold start
    split
    · rename_i x hp
      split
      · rename_i hx
        obtain ⟨a, ha⟩ := hi.running x hx
        have := hi.one a r x (.inr (.inl ha)) (.inl hp)
        subst this
        rw [hp] at ha; cases ha
      · rw [if_pos (hi.out r x (.inl hp)).1]
        exact .inr ⟨_, rfl⟩
    · exact .inl ⟨_, rfl⟩
  | done r ok =>
    refine key (fun t h => inv_done hi h) ?_
    show (∃ m, done r ok s = .err m) ∨ ∃ t, done r ok s = .ok t
    unfold done
    split
    · exact .inr ⟨_, rfl⟩
    · exact .inl ⟨_, rfl⟩
  | give r =>
    refine key (fun t h => inv_give hi h) ?_
    show (∃ m, give r s = .err m) ∨ ∃ t, give r s = .ok t
    unfold give
    split
    · rename_i x hp
      rw [if_neg (hi.out r x (.inr (.inr ⟨true, hp⟩))).2]
      exact .inr ⟨_, rfl⟩
    · exact .inl ⟨_, rfl⟩
  | drop r =>
    show (∃ m, drop r s = .err m) ∨ ∃ t, drop r s = .ok t ∧ Inv t
    rcases drop_ok hi r with h | ⟨x, h0, hn, h⟩
    · exact .inl h
    · exact .inr ⟨_, h, inv_left hi h0 hn⟩
  | close =>
    exact .inr (close_ok hi (hc rfl))

theorem inv_reach {s : St} (h : Reach s) : Inv s := by
  induction h with
  | init => exact inv_init
  | step s e s' _ ho hc hs ih =>
    rcases inv_step ih ho e hc with ⟨m, h⟩ | ⟨t, h, hi⟩
    · rw [hs] at h; cases h
    · rw [hs] at h; injection h with h; rw [h]; exact hi

end Verif.C90
