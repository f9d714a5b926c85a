import Verif.Spec.C51

/-! C51: a partition is scheduled for refresh when it reaches its watermark, once. -/
namespace Verif.C51
open Sched

theorem filter_count (l : List Bool) : (l.filter id).length = l.count true := by
  induction l with
  | nil => rfl
  | cons b l ih => cases b <;> simp [ih]

theorem stored_wm {c : Conf} (h : c.wm < 4294967296) : wrapU32 c.stored = c.wm ∧ (c.stored = 0 ↔ c.wm = 0) := by
  unfold Conf.stored wrapU32 wrapS32
  omega

theorem commit_flag {c : Conf} : ∀ n s p, p.refresh = true → commit c n s p = (s, p)
  | 0, _, _, _ => rfl
  | n + 1, s, p, h => by
    have : commitOne c s p = (s, p) := by
      unfold commitOne ready
      simp [h]
    unfold commit
    rw [this]
    exact commit_flag n s p h

theorem commit_not {c : Conf} {p : Part} (h : ready c p = false) : ∀ n s, commit c n s p = (s, p)
  | 0, _ => rfl
  | n + 1, s => by
    have : commitOne c s p = (s, p) := by
      unfold commitOne
      simp [h]
    unfold commit
    rw [this]
    exact commit_not h n s

theorem commit_ready {c : Conf} {p : Part} {s : St} (h : ready c p = true) (n : Nat) :
    commit c (n + 1) s p = ({ s with waiting := s.waiting + 1 }, { p with refresh := true }) := by
  unfold commit
  have : commitOne c s p = ({ s with waiting := s.waiting + 1 }, { p with refresh := true }) := by
    unfold commitOne
    simp [h]
  rw [this]
  exact commit_flag n _ _ rfl

/-- What a write does. -/
theorem write_step (c : Conf) (s : St) (news : List Bool) (hn : news ≠ []) :
    step c s (.write news) =
      if ready c (grow s.target news) then
        { s with waiting := s.waiting + 1, part := some { grow s.target news with refresh := true } }
      else { s with part := some (grow s.target news) } := by
  unfold step
  dsimp only
  rw [if_neg hn]
  obtain ⟨x, l, rfl⟩ := List.exists_cons_of_ne_nil hn
  cases h : ready c (grow s.target (x :: l)) with
  | true => simp only [List.length_cons, commit_ready h]; rfl
  | false => simp only [List.length_cons, commit_not h]; rfl

theorem ready_iff {c : Conf} (h : c.wm < 4294967296) (s : St) (news : List Bool) :
    ready c (grow s.target news) = true ↔ s.target.refresh = false ∧ 0 < c.wm ∧ c.wm < size c s news := by
  obtain ⟨h1, h2⟩ := stored_wm h
  have hs : used c (grow s.target news).act = size c s news := by
    unfold used size grow St.target
    rw [filter_count]
    cases s.part <;> rfl
  have hr : (grow s.target news).refresh = s.target.refresh := rfl
  unfold ready
  rw [h1, hs, hr]
  by_cases a1 : s.target.refresh = true
  · simp [a1]
  · by_cases a2 : c.wm = 0
    · rw [if_neg a1, if_pos (h2.2 a2)]; simp [a2]
    · have a3 : ¬ c.stored = 0 := fun h => a2 (h2.1 h)
      rw [if_neg a1, if_neg a3, decide_eq_true_eq]
      simp at a1
      simp [a1]
      omega

/-- If the flag is set, something is scheduled, under way, or failed. -/
def Reason (s : St) (b : Bool) : Prop :=
  s.target.refresh = true → 0 < s.waiting ∨ 0 < s.running ∨ 0 < s.moving ∨ s.job = some .request ∨ s.job = some .move ∨ b = true

theorem reason_step (c : Conf) (s : St) (b : Bool) (e : Ev) (h : Reason s b) (hj : s.job.isSome → s.part.isSome) :
    Reason (step c s e) (failed c b s [e]) ∧ ((step c s e).job.isSome → (step c s e).part.isSome) := by
  obtain ⟨part, w, r, m, j⟩ := s
  cases e with
  | write news =>
    by_cases hn : news = []
    · subst hn; exact ⟨h, hj⟩
    · rw [write_step c _ news hn]
      split
      · refine ⟨fun _ => .inl (by simp), by simp⟩
      · exact ⟨h, by simp⟩
  | refused news =>
    by_cases hn : news = []
    · subst hn; exact ⟨h, hj⟩
    · simp only [step, if_neg hn]
      exact ⟨h, by simp⟩
  | checkpoint =>
    cases part with
    | none => exact ⟨h, hj⟩
    | some p =>
      simp only [step]
      split
      · exact ⟨fun _ => .inl (by simp), by simp⟩
      · exact ⟨h, hj⟩
  | take =>
    simp only [step]
    split
    · exact ⟨h, hj⟩
    · exact ⟨fun _ => .inr (.inl (by simp)), hj⟩
  | mark =>
    cases part with
    | none => exact ⟨h, hj⟩
    | some p =>
      simp only [step]
      split
      · exact ⟨h, hj⟩
      · exact ⟨fun _ => .inr (.inr (.inl (by simp))), by simp⟩
  | start k =>
    simp only [step]
    split
    · exact ⟨h, hj⟩
    split
    · exact ⟨h, hj⟩
    split
    · exact ⟨h, hj⟩
    rename_i h1 h2 h3
    have hjn : j = none := by cases j <;> simp_all
    subst hjn
    cases part with
    | none =>
      cases k <;> exact ⟨fun hx => absurd hx (by simp [St.target, fresh]), by simp⟩
    | some p =>
      cases k with
      | request => exact ⟨fun _ => by simp, by simp⟩
      | move => exact ⟨fun _ => by simp, by simp⟩
      | command =>
        refine ⟨fun hx => ?_, by simp⟩
        rcases h hx with h | h | h | h | h | h
        · exact .inl h
        · exact .inr (.inl h)
        · exact .inr (.inr (.inl h))
        · cases h
        · cases h
        · exact .inr (.inr (.inr (.inr (.inr h))))
  | apply =>
    cases j with
    | none => exact ⟨h, hj⟩
    | some k =>
      cases part with
      | none => exact absurd (hj rfl) (by simp)
      | some p => exact ⟨fun hx => (by cases hx), by simp [step]⟩
  | fail =>
    simp only [step, failed]
    refine ⟨fun hx => ?_, by simp⟩
    rcases h hx with h | h | h | h | h | h
    · exact .inl h
    · exact .inr (.inl h)
    · exact .inr (.inr (.inl h))
    · exact .inr (.inr (.inr (.inr (.inr (by simp only at h; simp [h])))))
    · exact .inr (.inr (.inr (.inr (.inr (by simp only at h; simp [h])))))
    · refine .inr (.inr (.inr (.inr (.inr ?_))))
      split <;> simp [h]
  | giveUp =>
    simp only [step, failed]
    split
    · exact ⟨fun _ => by simp, hj⟩
    · exact ⟨fun _ => by simp, hj⟩
  | moveEnds =>
    simp only [step, failed]
    split
    · exact ⟨fun _ => by simp, hj⟩
    · exact ⟨fun _ => by simp, hj⟩
  | drop =>
    simp only [step, failed]
    split
    · exact ⟨h, hj⟩
    · refine ⟨fun hx => (by cases hx), ?_⟩
      rename_i hn
      intro h; exact absurd h hn
  | restart => exact ⟨fun hx => (by cases hx), by simp [step, init]⟩

theorem reason_run (c : Conf) : ∀ (es : List Ev) (s : St) (b : Bool), Reason s b → (s.job.isSome → s.part.isSome) →
    Reason (run c s es) (failed c b s es)
  | [], _, _, h, _ => h
  | e :: es, s, b, h, hj => by
    obtain ⟨h1, h2⟩ := reason_step c s b e h hj
    exact reason_run c es _ _ h1 h2

/-- Partial: with a watermark below 2^32, if no background refresh of the
partition has failed since it was last refreshed, a batch that leaves more bytes
than the watermark schedules a refresh, whatever commands, checkpoints, moves,
drops and failed commands came before.  Missing: see C51_false_failure and
C51_false_watermark. -/
theorem C51_queued_partial (c : Conf) (es : List Ev) (hwm : c.wm < 4294967296) (hf : failed c false init es = false) :
    Queues c (run c init es) := by
  intro news hn hb h0 hs
  have hr := reason_run c es init false (fun h => by cases h) (by simp [init])
  rw [hf] at hr
  have hflag : (run c init es).target.refresh = false := by
    cases hx : (run c init es).target.refresh with
    | false => rfl
    | true =>
      refine absurd ?_ hb
      unfold Busy
      rcases hr hx with h | h | h | h | h | h
      · exact .inl h
      · exact .inr (.inl h)
      · exact .inr (.inr (.inl h))
      · rw [h]; simp
      · rw [h]; simp
      · cases h
  rw [write_step _ _ _ hn, if_pos ((ready_iff hwm _ _).2 ⟨hflag, h0, hs⟩)]

/-- What is scheduled or under way. -/
def load (s : St) : Nat := s.waiting + s.running + s.moving + (if s.job.isSome then 1 else 0)

/-- The flag is set while something is scheduled or under way. -/
def Marked (s : St) : Prop := load s ≤ 1 ∧ (load s = 1 → ∃ p, s.part = some p ∧ p.refresh = true)

theorem marked_step (c : Conf) (s : St) (e : Ev) (h : Marked s) (h1 : e ≠ .start .command) (h2 : e = .drop → ¬ Busy s) :
    Marked (step c s e) := by
  obtain ⟨part, w, r, m, j⟩ := s
  have hset : ∀ p, part = some p → p.refresh = false → w = 0 ∧ r = 0 ∧ m = 0 ∧ j = none := by
    intro p hp hr
    by_cases hl : load ⟨part, w, r, m, j⟩ = 1
    · obtain ⟨q, hq, hq'⟩ := h.2 hl
      simp only at hq
      rw [hp] at hq
      cases hq
      rw [hr] at hq'
      cases hq'
    · have := h.1
      unfold load at hl this
      cases j <;> simp at hl this ⊢ <;> omega
  have hnone : part = none → w = 0 ∧ r = 0 ∧ m = 0 ∧ j = none := by
    intro hp
    by_cases hl : load ⟨part, w, r, m, j⟩ = 1
    · obtain ⟨q, hq, _⟩ := h.2 hl
      simp only at hq
      rw [hp] at hq
      cases hq
    · have := h.1
      unfold load at hl this
      cases j <;> simp at hl this ⊢ <;> omega
  have htar : (St.target ⟨part, w, r, m, j⟩).refresh = false → w = 0 ∧ r = 0 ∧ m = 0 ∧ j = none := by
    cases part with
    | none => exact fun _ => hnone rfl
    | some p => exact fun hx => hset p rfl hx
  have hflag : (St.target ⟨part, w, r, m, j⟩).refresh = true → ∃ p, part = some p ∧ p.refresh = true := by
    cases part with
    | none => intro h; cases h
    | some p => exact fun hx => ⟨p, rfl, hx⟩
  -- the same load and flag
  have hkeep : ∀ q : Part, q.refresh = (St.target ⟨part, w, r, m, j⟩).refresh → Marked ⟨some q, w, r, m, j⟩ := by
    intro q hq
    refine ⟨h.1, fun hl => ⟨q, rfl, ?_⟩⟩
    obtain ⟨p, hp, hr⟩ := h.2 hl
    simp only at hp
    subst hp
    exact hq.trans hr
  cases e with
  | write news =>
    by_cases hn : news = []
    · subst hn; exact h
    · rw [write_step c _ news hn]
      split
      · rename_i hr
        have hq : (St.target ⟨part, w, r, m, j⟩).refresh = false := by
          cases hx : (St.target ⟨part, w, r, m, j⟩).refresh with
          | false => rfl
          | true =>
            unfold ready at hr
            rw [show (grow (St.target ⟨part, w, r, m, j⟩) news).refresh = true from hx] at hr
            cases hr
        obtain ⟨rfl, rfl, rfl, rfl⟩ := htar hq
        exact ⟨by simp [load], fun _ => ⟨_, rfl, rfl⟩⟩
      · exact hkeep _ rfl
  | refused news =>
    by_cases hn : news = []
    · subst hn; exact h
    · simp only [step, if_neg hn]
      exact hkeep _ rfl
  | checkpoint =>
    cases part with
    | none => exact h
    | some p =>
      simp only [step]
      split
      · rename_i hc
        obtain ⟨rfl, rfl, rfl, rfl⟩ := hset p rfl (by simpa using hc.1)
        exact ⟨by simp [load], fun _ => ⟨_, rfl, rfl⟩⟩
      · exact h
  | take =>
    simp only [step]
    split
    · exact h
    · have hl : load ⟨part, w - 1, r + 1, m, j⟩ = load ⟨part, w, r, m, j⟩ := by simp only [load]; omega
      exact ⟨hl ▸ h.1, fun hx => h.2 (hl ▸ hx)⟩
  | mark =>
    cases part with
    | none => exact h
    | some p =>
      simp only [step]
      split
      · exact h
      · rename_i hc
        obtain ⟨rfl, rfl, rfl, rfl⟩ := hset p rfl (by simpa using hc)
        exact ⟨by simp [load], fun _ => ⟨_, rfl, rfl⟩⟩
  | start k =>
    simp only [step]
    split
    · exact h
    split
    · exact h
    split
    · exact h
    rename_i g1 g2 g3
    have hjn : j = none := by cases j <;> simp_all
    subst hjn
    cases part with
    | none =>
      obtain ⟨rfl, rfl, rfl, _⟩ := hnone rfl
      cases k with
      | command => exact absurd rfl h1
      | request => simp at g2
      | move => simp at g3
    | some p =>
      have hp : p.refresh = true := by
        cases hx : p.refresh with
        | true => rfl
        | false =>
          obtain ⟨rfl, rfl, rfl, _⟩ := hset p rfl hx
          cases k with
          | command => exact absurd rfl h1
          | request => simp at g2
          | move => simp at g3
      have hl := h.1
      cases k with
      | command => exact absurd rfl h1
      | request =>
        refine ⟨?_, fun _ => ⟨_, rfl, hp⟩⟩
        simp [load] at hl g2 ⊢
        omega
      | move =>
        refine ⟨?_, fun _ => ⟨_, rfl, hp⟩⟩
        simp [load] at hl g3 ⊢
        omega
  | apply =>
    cases j with
    | none => exact h
    | some k =>
      cases part with
      | none => exact h
      | some p =>
        have hl := h.1
        simp [load] at hl
        obtain ⟨⟨rfl, rfl⟩, rfl⟩ : (w = 0 ∧ r = 0) ∧ m = 0 := by omega
        exact ⟨by simp [load, step], fun hx => by simp [load, step] at hx⟩
  | fail =>
    have hl := h.1
    simp only [step]
    cases j with
    | none => exact h
    | some k =>
      simp [load] at hl
      obtain ⟨⟨rfl, rfl⟩, rfl⟩ : (w = 0 ∧ r = 0) ∧ m = 0 := by omega
      exact ⟨by simp [load], fun hx => by simp [load] at hx⟩
  | giveUp =>
    have hl := h.1
    simp only [step]
    split
    · exact h
    · simp only [load] at hl
      refine ⟨?_, fun hx => ?_⟩ <;> simp only [load] at * <;> omega
  | moveEnds =>
    have hl := h.1
    simp only [step]
    split
    · exact h
    · simp only [load] at hl
      refine ⟨?_, fun hx => ?_⟩ <;> simp only [load] at * <;> omega
  | drop =>
    simp only [step]
    split
    · exact h
    · have hb := h2 rfl
      unfold Busy at hb
      simp only [not_or, Nat.not_lt] at hb
      refine ⟨h.1, fun hx => ?_⟩
      simp only [load] at hx
      cases j <;> simp at hx hb <;> omega
  | restart => exact ⟨by simp [load, step, init], fun hx => by simp [load, step, init] at hx⟩

theorem marked_run (c : Conf) : ∀ (es : List Ev) (s : St), Marked s → Undisturbed c s es → Marked (run c s es)
  | [], _, h, _ => h
  | e :: es, s, h, hu => marked_run c es _ (marked_step c s e h hu.1 hu.2.1) hu.2.2

/-- Partial: with a watermark below 2^32, if no command refreshes the partition
and it is not dropped while a request for it exists, a batch schedules nothing
while something is scheduled or under way, or below the watermark; failures
included.  Missing: see C51_false_command and C51_false_drop. -/
theorem C51_once_partial (c : Conf) (es : List Ev) (hwm : c.wm < 4294967296) (hu : Undisturbed c init es) :
    Once c (run c init es) := by
  intro news hb
  have hm := marked_run c es init ⟨by simp [load, init], fun h => by simp [load, init] at h⟩ hu
  generalize run c init es = s at hb hm
  by_cases hn : news = []
  · subst hn; rfl
  rw [write_step _ _ _ hn, if_neg]
  intro hr
  obtain ⟨r1, r2, r3⟩ := (ready_iff hwm _ _).1 hr
  rcases hb with hb | hb | hb
  · have hl : load s = 1 := by
      have := hm.1
      unfold load at *
      rcases hb with hb | hb | hb | hb
      · omega
      · omega
      · omega
      · rw [if_pos hb] at *; omega
    obtain ⟨p, hp, hp'⟩ := hm.2 hl
    unfold St.target at r1
    rw [hp] at r1
    simp only at r1
    rw [hp'] at r1
    cases r1
  · omega
  · omega

/-- The table that takes writes holds the pages taken since the last refresh
began, the other one is empty unless a refresh is under way. -/
def Clean (s : St) (n : Nat) (b : Bool) : Prop :=
  b = false → s.target.act = n ∧ (s.job = none → s.target.other = 0)

theorem clean_step (c : Conf) (s : St) (n : Nat) (b : Bool) (e : Ev) (h : Clean s n b) (hj : s.job.isSome → s.part.isSome) :
    Clean (step c s e) (since c n s [e]) (everFailed c b s [e]) := by
  obtain ⟨part, w, r, m, j⟩ := s
  cases e with
  | write news =>
    by_cases hn : news = []
    · subst hn; exact h
    · rw [write_step c _ news hn]
      intro hb
      have hh := h hb
      split <;> exact ⟨by show _ + _ = _; rw [filter_count, hh.1]; rfl, hh.2⟩
  | refused news =>
    by_cases hn : news = []
    · subst hn; exact h
    · simp only [step, if_neg hn]
      intro hb
      have hh := h hb
      exact ⟨by show _ + _ = _; rw [filter_count, hh.1]; rfl, hh.2⟩
  | checkpoint =>
    cases part with
    | none => exact h
    | some p =>
      simp only [step]
      split <;> exact h
  | take => simp only [step]; split <;> exact h
  | mark =>
    cases part with
    | none => exact h
    | some p =>
      simp only [step]
      split <;> exact h
  | start k =>
    simp only [step]
    cases j with
    | some k0 =>
      simp only [Option.isSome_some, if_true]
      have : Starts ⟨part, w, r, m, some k0⟩ k = false := by cases k <;> simp [Starts]
      simp only [since, this]
      exact h
    | none =>
      simp only [Option.isSome_none, Bool.false_eq_true, if_false]
      cases part with
      | none =>
        have hs : Starts ⟨none, w, r, m, none⟩ k = false := by cases k <;> simp [Starts]
        simp only [since, hs]
        split
        · exact h
        split
        · exact h
        · cases k <;> exact h
      | some p =>
        by_cases h1 : k = .request ∧ r = 0
        · rw [if_pos h1]
          have hs : Starts ⟨some p, w, r, m, none⟩ k = false := by simp [h1.1, Starts, h1.2]
          simp only [since, hs]
          exact h
        rw [if_neg h1]
        by_cases h2 : k = .move ∧ m = 0
        · rw [if_pos h2]
          have hs : Starts ⟨some p, w, r, m, none⟩ k = false := by simp [h2.1, Starts, h2.2]
          simp only [since, hs]
          exact h
        rw [if_neg h2]
        have hs : Starts ⟨some p, w, r, m, none⟩ k = true := by
          cases k <;> simp [Starts] at h1 h2 ⊢ <;> omega
        simp only [since, hs]
        intro hb
        have hh := h hb
        cases k <;> exact ⟨hh.2 rfl, fun hx => by cases hx⟩
  | apply =>
    cases j with
    | none => exact h
    | some k =>
      cases part with
      | none => exact absurd (hj rfl) (by simp)
      | some p =>
        intro hb
        exact ⟨(h hb).1, fun _ => rfl⟩
  | fail =>
    cases j with
    | none => exact h
    | some k => intro hb; simp [everFailed] at hb
  | giveUp => simp only [step]; split <;> exact h
  | moveEnds => simp only [step]; split <;> exact h
  | drop =>
    cases j with
    | none => exact fun _ => ⟨rfl, fun _ => rfl⟩
    | some k => exact h
  | restart => exact fun _ => ⟨rfl, fun _ => rfl⟩

theorem clean_run (c : Conf) : ∀ (es : List Ev) (s : St) (n : Nat) (b : Bool), Clean s n b → (s.job.isSome → s.part.isSome) →
    Clean (run c s es) (since c n s es) (everFailed c b s es)
  | [], _, _, _, h, _ => h
  | e :: es, s, n, b, h, hj => by
    have hj' : (step c s e).job.isSome → (step c s e).part.isSome :=
      (reason_step c s true e (fun _ => .inr (.inr (.inr (.inr (.inr rfl))))) hj).2
    exact clean_run c es _ _ _ (clean_step c s n b e h hj) hj'

/-- Partial: if no refresh of the partition has failed, the size that is compared
with the watermark is that of what was written since the last refresh began.
Missing: see C51_false_size. -/
theorem C51_size_partial (c : Conf) (es : List Ev) (hf : everFailed c false init es = false) : Counts c es := by
  have h := (clean_run c es init 0 false (fun _ => ⟨rfl, fun _ => rfl⟩) (by simp [init]) hf).1
  unfold Counts size
  rw [← h]
  unfold St.target
  cases (run c init es).part <;> simp [fresh]

/-- A watermark of 5 MB, pages of 2 MiB. -/
def conf : Conf := ⟨2097152, 5000000⟩
def three : Ev := .write [true, false, true, true]

/-- False of the code: after one failed refresh the partition is not scheduled
any more, however much is written (64 MiB here). -/
theorem C51_false_failure :
    ¬ Queues conf (run conf init [three, .take, .start .request, .fail]) ∧
    (∀ n, (step conf (run conf init [three, .take, .start .request, .fail]) (.write (List.replicate (n + 1) true))).waiting = 0) := by
  have h2 : ∀ n, (step conf (run conf init [three, .take, .start .request, .fail])
      (.write (List.replicate (n + 1) true))).waiting = 0 := by
    intro n
    rw [write_step _ _ _ (by simp), if_neg (by
      have : (run conf init [three, .take, .start .request, .fail]).target.refresh = true := by decide
      simp [ready, grow, this])]
    show (run conf init [three, .take, .start .request, .fail]).waiting = 0
    decide
  refine ⟨fun h => ?_, h2⟩
  have := h (List.replicate (31 + 1) true) (by decide) (by unfold Busy; decide) (by decide) (by decide)
  rw [h2 31] at this
  exact absurd this (by decide)

/-- False of the code: while a request waits, REFRESH PARTITION makes a new
partition without the flag, and the next batches schedule it again. -/
theorem C51_false_command :
    ¬ Once conf (run conf init [three, .start .command, .apply]) ∧
    (run conf init [three, .start .command, .apply, three]).waiting = 2 := by
  refine ⟨fun h => ?_, by decide⟩
  have := h [true, true, true] (.inl (by unfold Busy; decide))
  exact absurd this (by decide)

/-- False of the code: a partition that is dropped and written again is scheduled
although the old request waits. -/
theorem C51_false_drop : ¬ Once conf (run conf init [three, .drop]) := by
  intro h
  have := h [true, true, true] (.inl (by unfold Busy; decide))
  exact absurd this (by decide)

/-- False of the code: a watermark of 4 GiB is stored as 0 and never reached, one
of 4 GiB and one byte as 1. -/
theorem C51_false_watermark (n : Nat) : (step ⟨2097152, 4294967296⟩ init (.write (List.replicate (n + 1) true))).waiting = 0 ∧
    (step ⟨2097152, 4294967297⟩ init (.write [true])).waiting = 1 := by
  refine ⟨?_, by decide⟩
  rw [write_step _ _ _ (by simp), if_neg]
  · rfl
  · unfold ready
    rw [if_neg (by simp [grow, St.target, init, fresh]), if_pos (by decide)]
    decide

/-- False of the code: after a failed refresh the next one takes the table with
the newer events, and the older ones count again as newly written. -/
theorem C51_false_size : ¬ Counts conf [three, .take, .start .request, .fail, .start .command, .apply] := by
  unfold Counts
  decide

theorem C51_false : ¬ Full := fun h => C51_false_failure.1 (h conf _ (by decide)).1

/-- The hypotheses of C51_queued_partial are met after a failed refresh followed
by a successful one, and the partition is scheduled again. -/
example : failed conf false init [three, .take, .start .request, .fail, .start .command, .apply, .refused [true]] = false ∧
    (run conf init [three, .take, .start .request, .fail, .start .command, .apply, .refused [true], three]).waiting = 1 := by
  decide

/-- The hypothesis of C51_size_partial is met by a history with writes before,
during and after a refresh. -/
example : everFailed conf false init [three, .take, .start .request, .write [true], .apply, .write [true, false]] = false ∧
    since conf 0 init [three, .take, .start .request, .write [true], .apply, .write [true, false]] = 2 := by
  decide

/-- The hypotheses of C51_once_partial are met by a history with a request, a
failure and a rebalance; nothing more is scheduled while the move is under way. -/
example : Undisturbed conf init [.write [true], .mark, .start .move, .fail, .restart, three, .take, .start .request, .write [true]] ∧
    Busy (run conf init [.write [true], .mark, .start .move, .fail, .restart, three, .take, .start .request, .write [true]]) ∧
    size conf (run conf init [.write [true], .mark, .start .move, .fail, .restart, three, .take, .start .request, .write [true]])
      [true, true, true] > conf.wm := by
  refine ⟨?_, ?_, by decide⟩
  · simp [Undisturbed, three]
  · unfold Busy; decide

end Verif.C51
