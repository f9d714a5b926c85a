import Verif.Spec.C69
import Verif.Proofs.C33

/-! Lemmas for C69. -/
namespace Verif.C69
open Life
open C33 hiding run

/-- How many workers were joined. -/
def done (e : Env) : Nat :=
  match e.api with
  | .idle => 0
  | .joining i => i
  | .closed => e.threads.length

/-- `b`: the workers were started. -/
structure Inv (b : Bool) (e : Env) : Prop where
  q : QInv e.service
  shut : e.service.shutdown = true ↔ e.api ≠ .idle
  awake : ∀ t ∈ e.threads, t.pc = .wait → e.service.shutdown = false ∧ ∀ r ∈ e.service.list, accepts t.filter r = false
  not_yet : b = false → e.threads = []
  len : e.api ≠ .closed → e.threads.length = e.count
  slots : e.api ≠ .closed → e.count ≠ 0 → ∃ ws, e.workers = some ws ∧ ∀ j, j < e.count → ∃ f, ws[j]? = some ⟨f, some j⟩
  joined : ∀ (j : Nat) (th : Thread), e.threads[j]? = some th → (th.pc = .joined ↔ j < done e)
  le : done e ≤ e.threads.length
  gone : e.api = .closed → e.workers = none ∧ e.service.list = []

theorem inv_init : Inv false init where
  q := ⟨by simp [init, Service.init], rfl, rfl⟩
  shut := by simp [init, Service.init]
  awake := by simp [init]
  not_yet := fun _ => rfl
  len := fun _ => rfl
  slots := fun _ h => absurd rfl h
  joined := by simp [init]
  le := by simp [init, done]
  gone := by simp [init]

theorem start_all (fs : List Filter) : ∀ i ts, (start_loop none i ts fs).1 = ts ++ fs.map (⟨·, .look⟩) ∧
    (start_loop none i ts fs).2.length = fs.length ∧
    ∀ j, j < fs.length → ∃ f, (start_loop none i ts fs).2[j]? = some ⟨f, some (ts.length + j)⟩ := by
  induction fs with
  | nil => intro i ts; simp [start_loop]
  | cons f fs ih =>
    intro i ts
    obtain ⟨h1, h2, h3⟩ := ih (i + 1) (ts ++ [⟨f, .look⟩])
    have e : start_loop none i ts (f :: fs) = ((start_loop none (i + 1) (ts ++ [⟨f, .look⟩]) fs).1,
        ⟨f, some ts.length⟩ :: (start_loop none (i + 1) (ts ++ [⟨f, .look⟩]) fs).2) := by
      rw [start_loop, if_neg (by simp)]
    rw [e]
    refine ⟨by rw [h1]; simp, by simp [h2], ?_⟩
    intro j hj
    cases j with
    | zero => exact ⟨f, by simp⟩
    | succ j =>
      obtain ⟨g, hg⟩ := h3 j (by simpa using hj)
      refine ⟨g, ?_⟩
      rw [List.getElem?_cons_succ, hg]
      simp only [List.length_append, List.length_cons, List.length_nil]
      congr 3; omega

theorem filters_length (w u : Nat) : (filters w u).length = w + u := by
  unfold filters
  split <;> simp [*]

theorem mem_wakeAll {ts : List Thread} {t : Thread} (h : t ∈ wakeAll ts) : t.pc ≠ .wait := by
  unfold wakeAll at h
  obtain ⟨s, _, rfl⟩ := List.mem_map.1 h
  by_cases hw : s.pc = .wait
  · rw [if_pos hw]; simp
  · rw [if_neg hw]; exact hw

theorem wakeAll_length (ts : List Thread) : (wakeAll ts).length = ts.length := by simp [wakeAll]

theorem wakeAll_getElem? {ts : List Thread} {j : Nat} {th : Thread} (h : (wakeAll ts)[j]? = some th) :
    ∃ s, ts[j]? = some s ∧ (th.pc = .joined ↔ s.pc = .joined) := by
  unfold wakeAll at h
  rw [List.getElem?_map] at h
  cases hs : ts[j]? with
  | none => rw [hs] at h; simp at h
  | some s =>
    rw [hs] at h
    simp only [Option.map_some, Option.some.injEq] at h
    refine ⟨s, rfl, ?_⟩
    rw [← h]
    by_cases hw : s.pc = .wait
    · rw [if_pos hw]; simp [hw]
    · rw [if_neg hw]

/-- A worker goes on, and is neither joined before nor after. -/
theorem inv_move {b : Bool} {e e' : Env} {t : Nat} {th : Thread} {pc : Pc} (h : Inv b e) (ht : e.threads[t]? = some th)
    (hj : th.pc ≠ .joined) (hj' : pc ≠ .joined) (hq : QInv e'.service) (hsh : e'.service.shutdown = e.service.shutdown)
    (hapi : e'.api = e.api) (hcl : e.api ≠ .closed) (hwk : e'.workers = e.workers) (hc : e'.count = e.count)
    (ts : List Thread) (hts : (ts = e.threads ∧ ∀ r ∈ e'.service.list, r ∈ e.service.list) ∨ ts = wakeAll e.threads) (hth : e'.threads = ts.set t ⟨th.filter, pc⟩)
    (hwait : pc = .wait → e'.service.shutdown = false ∧ ∀ r ∈ e'.service.list, accepts th.filter r = false) : Inv b e' := by
  have htl : ts.length = e.threads.length := by
    rcases hts with ⟨h, _⟩ | h <;> rw [h]
    exact wakeAll_length _
  have hlen : e'.threads.length = e.threads.length := by rw [hth, List.length_set, htl]
  have hdone : done e' = done e := by
    unfold done; rw [hapi, hlen]
  have hlt := (List.getElem?_eq_some_iff.1 ht).1
  refine ⟨hq, by rw [hsh, hapi]; exact h.shut, ?_, ?_, ?_, ?_, ?_, ?_, ?_⟩
  · intro x hx hw
    rw [hth] at hx
    rcases List.mem_or_eq_of_mem_set hx with hx | rfl
    · rcases hts with ⟨hs, hold⟩ | hs
      · rw [hs] at hx
        obtain ⟨h1, h2⟩ := h.awake x hx hw
        exact ⟨by rw [hsh]; exact h1, fun r hr => h2 r (hold r hr)⟩
      · rw [hs] at hx; exact absurd hw (mem_wakeAll hx)
    · exact hwait hw
  · intro hb
    have := h.not_yet hb
    rw [this] at hlt
    exact absurd hlt (by simp)
  · intro hx; rw [hlen, hc]; exact h.len hcl
  · intro _ hx
    rw [hwk]
    obtain ⟨ws, h1, h2⟩ := h.slots hcl (by rw [← hc]; exact hx)
    exact ⟨ws, h1, fun j hj => h2 j (by rw [← hc]; exact hj)⟩
  · intro j x hx
    rw [hdone]
    rw [hth, List.getElem?_set] at hx
    by_cases htj : t = j
    · subst htj
      have hn : ¬ t < done e := fun hh => hj ((h.joined t th ht).2 hh)
      rw [if_pos rfl] at hx
      have hl : t < ts.length := by rw [htl]; exact hlt
      rw [if_pos hl] at hx
      simp only [Option.some.injEq] at hx
      subst hx
      exact ⟨fun hh => absurd hh hj', fun hh => absurd hh hn⟩
    · rw [if_neg htj] at hx
      rcases hts with ⟨hs, _⟩ | hs
      · rw [hs] at hx; exact h.joined j x hx
      · rw [hs] at hx
        obtain ⟨s, h1, h2⟩ := wakeAll_getElem? hx
        rw [h2]; exact h.joined j s h1
  · rw [hdone, hlen]; exact h.le
  · intro hx; rw [hapi] at hx; exact absurd hx hcl

theorem next_cases (s : Service) (f : Filter) (h : QInv s) : (s.shutdown = true ∧ s.next f = .ok (.shutdown, s)) ∨
    (s.shutdown = false ∧ s.next f = .ok (.wait, s) ∧ ∀ r ∈ s.list, accepts f r = false) ∨
    (s.shutdown = false ∧ ∃ r s', s.next f = .ok (.got r, s') ∧ QInv s' ∧ s'.shutdown = false ∧ (∀ x ∈ s'.list, x ∈ s.list) ∧
      r.current < r.actions.length) := by
  cases hs : s.shutdown with
  | true => exact .inl ⟨rfl, by rw [Service.next, if_pos hs]⟩
  | false =>
    refine .inr ?_
    rcases split_first (accepts f) s.list with hn | ⟨A, r, B, e, hA, hr⟩
    · refine .inl ⟨rfl, ?_, hn⟩
      rw [Service.next, if_neg (by simp [hs]), fetch_none s f h hn, Res.bind_ok]
    · obtain ⟨s', h1, h2, h3, h4⟩ := fetch_some s f h A B r e hA hr
      refine .inr ⟨rfl, r, s', ?_, h3, by rw [h4]; exact hs, ?_, h.cur r (by rw [e]; simp)⟩
      · rw [Service.next, if_neg (by simp [hs]), h1, Res.bind_ok]
      · intro x hx
        rw [h2] at hx; rw [e]
        rcases List.mem_append.1 hx with hx | hx <;> simp [hx]

/-- The turn of a worker. -/
theorem turn_cases (e : Env) (t : Nat) (th : Thread) (r : SReq) (ok : Bool) (h : QInv e.service) :
    (turn e t th r ok = .ok (setPc e t th.filter .look)) ∨
    (r.current < r.actions.length ∧ turn e t th r ok = .ok (setPc e t th.filter (.work { r with current := r.current + 1 }))) ∨
    (∃ sv, turn e t th r ok = .ok (setPc { e with service := sv, threads := wakeAll e.threads } t th.filter .look) ∧
      QInv sv ∧ sv.shutdown = e.service.shutdown) := by
  unfold turn
  cases ha : r.actions[r.current]? with
  | none => exact .inl rfl
  | some a =>
    have hlt := (List.getElem?_eq_some_iff.1 ha).1
    obtain ⟨p, hp, _⟩ := filter_ok r th.filter a ha
    dsimp only
    rw [hp, Res.bind_ok]
    cases p with
    | false =>
      obtain ⟨sv, h1, h2, h3⟩ := schedule_spec e.service r h hlt
      refine .inr (.inr ⟨sv, ?_, h3, ?_⟩)
      · simp only [Bool.not_false, if_true]
        rw [h1, Res.bind_ok]
      · unfold Service.schedule at h1
        rw [isUpload_ok r hlt, Res.bind_ok] at h1
        cases h1; rfl
    | true =>
      simp only [Bool.not_true, Bool.false_eq_true, if_false]
      cases ok with
      | true => exact .inr (.inl ⟨hlt, by simp⟩)
      | false => exact .inl (by simp)

theorem add_cases (e : Env) (id : Nat) (as : List Action) (h : QInv e.service) (hn : as ≠ []) :
    ∃ sv, e.service.add e.fresh id as = .ok sv ∧ QInv sv ∧ sv.shutdown = e.service.shutdown := by
  have hlt : (⟨e.fresh, id, 0, as⟩ : SReq).current < (⟨e.fresh, id, 0, as⟩ : SReq).actions.length := List.length_pos_iff.2 hn
  obtain ⟨sv, h1, h2, h3⟩ := schedule_spec e.service ⟨e.fresh, id, 0, as⟩ h hlt
  refine ⟨sv, by rw [Service.add, if_neg hn, h1], h3, ?_⟩
  unfold Service.schedule at h1
  rw [isUpload_ok _ hlt, Res.bind_ok] at h1
  cases h1; rfl

theorem inv_wakeAll {b : Bool} {e e' : Env} (h : Inv b e) (hq : QInv e'.service) (hsh : e'.service.shutdown = true ↔ e'.api ≠ .idle)
    (hd : done e' = done e) (hcl : e.api ≠ .closed) (hcl' : e'.api ≠ .closed) (hwk : e'.workers = e.workers) (hc : e'.count = e.count)
    (hth : e'.threads = wakeAll e.threads) : Inv b e' := by
  refine ⟨hq, hsh, ?_, ?_, ?_, ?_, ?_, ?_, ?_⟩
  · intro x hx hw; rw [hth] at hx; exact absurd hw (mem_wakeAll hx)
  · intro hb; rw [hth, h.not_yet hb]; rfl
  · intro _; rw [hth, wakeAll_length, hc]; exact h.len hcl
  · intro _ hx
    rw [hwk]
    obtain ⟨ws, h1, h2⟩ := h.slots hcl (by rw [← hc]; exact hx)
    exact ⟨ws, h1, fun j hj => h2 j (by rw [← hc]; exact hj)⟩
  · intro j x hx
    rw [hd]
    rw [hth] at hx
    obtain ⟨s, h1, h2⟩ := wakeAll_getElem? hx
    rw [h2]; exact h.joined j s h1
  · rw [hd, hth, wakeAll_length]; exact h.le
  · intro hx; exact absurd hx hcl'

/-- What a step gives: it goes on with the invariant, or is not possible. -/
theorem inv_step {b : Bool} {e : Env} (ev : Event) (h : Inv b e) (hl : ∀ id as, ev = .add id as → as ≠ [])
    (ht : ∀ id as, ev = .add id as → e.api ≠ .closed) (ho : ∀ w u o, ev = .open_ w u o → o = .early ∨ (o = .done ∧ b = false)) :
    step e ev = notNow ∨ ∃ e', step e ev = .ok e' ∧ Inv (b || starts ev) e' := by
  cases ev with
  | open_ w u o =>
    simp only [step]
    by_cases hi : e.api = .idle
    · rw [if_pos hi]
      refine .inr ⟨_, rfl, ?_⟩
      rcases ho w u o rfl with rfl | ⟨rfl, rfl⟩
      · simpa [open_, starts] using h
      · obtain ⟨h1, h2, h3⟩ := start_all (filters w u) 0 e.threads
        have h0 := h.not_yet rfl
        rw [h0] at h1 h2 h3
        have e1 : open_ e w u .done = Env.mk e.service ((filters w u).map fun f => ⟨f, .look⟩)
            (some (start_loop none 0 [] (filters w u)).2) (w + u) e.api e.fresh := by
          unfold open_
          dsimp only
          rw [h0, h1]; rfl
        rw [e1]
        refine ⟨h.q, h.shut, ?_, by simp [starts], ?_, ?_, ?_, ?_, ?_⟩
        · intro x hx hw
          obtain ⟨f, _, rfl⟩ := List.mem_map.1 hx
          simp at hw
        · intro _; simp [filters_length]
        · intro _ _
          refine ⟨_, rfl, fun j hj => ?_⟩
          obtain ⟨f, hf⟩ := h3 j (by rw [filters_length]; exact hj)
          exact ⟨f, by simpa using hf⟩
        · intro j x hx
          have hx' : ((filters w u).map fun x => (⟨x, .look⟩ : Thread))[j]? = some x := hx
          rw [List.getElem?_map] at hx'
          cases hf : (filters w u)[j]? with
          | none => rw [hf] at hx'; simp at hx'
          | some f =>
            rw [hf] at hx'
            simp only [Option.map_some, Option.some.injEq] at hx'
            rw [← hx']
            simp [done, hi]
        · simp [done, hi]
        · intro hx
          have : e.api = .closed := hx
          rw [hi] at this; cases this
    · rw [if_neg hi]; exact .inl rfl
  | add id as =>
    simp only [step]
    have hcl := ht id as rfl
    rw [if_neg hcl]
    obtain ⟨sv, h1, h2, h3⟩ := add_cases e id as h.q (hl id as rfl)
    rw [h1, Res.bind_ok]
    refine .inr ⟨_, rfl, ?_⟩
    rw [show (b || starts (.add id as)) = b by simp [starts]]
    refine inv_wakeAll h h2 ?_ ?_ hcl hcl rfl rfl rfl
    · show sv.shutdown = true ↔ _
      rw [h3]; exact h.shut
    · unfold done; dsimp only; rw [wakeAll_length]
  | wake t =>
    simp only [step]
    rw [show (b || starts (.wake t)) = b by simp [starts]]
    cases hg : e.threads[t]? with
    | none => exact .inl rfl
    | some th =>
      dsimp only
      by_cases hw : th.pc = .wait
      · rw [if_pos hw]
        have hmem := List.mem_of_getElem? hg
        obtain ⟨hs, _⟩ := h.awake th hmem hw
        have hcl : e.api ≠ .closed := fun hc => by
          have := h.shut.2 (by rw [hc]; simp)
          rw [hs] at this; cases this
        rw [if_neg hcl]
        refine .inr ⟨_, rfl, inv_move h hg (by rw [hw]; simp) (pc := .look) (by simp) h.q rfl rfl hcl rfl rfl e.threads (.inl ⟨rfl, fun r hr => hr⟩) rfl (by simp)⟩
      · rw [if_neg hw]; exact .inl rfl
  | look t =>
    simp only [step]
    rw [show (b || starts (.look t)) = b by simp [starts]]
    cases hg : e.threads[t]? with
    | none => exact .inl rfl
    | some th =>
      dsimp only
      by_cases hw : th.pc = .look
      · rw [if_pos hw]
        have hcl : e.api ≠ .closed := fun hc => by
          have := (h.joined t th hg).2 (by unfold done; rw [hc]; exact (List.getElem?_eq_some_iff.1 hg).1)
          rw [hw] at this; cases this
        rw [if_neg hcl]
        unfold look
        rcases next_cases e.service th.filter h.q with ⟨h1, h2⟩ | ⟨h1, h2, h3⟩ | ⟨h1, r, s', h2, h3, h4, h5, h6⟩
        · rw [h2, Res.bind_ok]
          exact .inr ⟨_, rfl, inv_move h hg (by rw [hw]; simp) (pc := .ended) (by simp) h.q rfl rfl hcl rfl rfl e.threads (.inl ⟨rfl, fun r hr => hr⟩) rfl (by simp)⟩
        · rw [h2, Res.bind_ok]
          exact .inr ⟨_, rfl, inv_move h hg (by rw [hw]; simp) (pc := .wait) (by simp) h.q rfl rfl hcl rfl rfl e.threads (.inl ⟨rfl, fun r hr => hr⟩) rfl
            (fun _ => ⟨h1, h3⟩)⟩
        · rw [h2, Res.bind_ok]
          exact .inr ⟨_, rfl, inv_move h hg (by rw [hw]; simp) (pc := .work r) (by simp) h3 (by rw [h1]; exact h4) rfl hcl rfl rfl e.threads (.inl ⟨rfl, h5⟩) rfl
            (by simp)⟩
      · rw [if_neg hw]; exact .inl rfl
  | turn t ok =>
    simp only [step]
    rw [show (b || starts (.turn t ok)) = b by simp [starts]]
    cases hg : e.threads[t]? with
    | none => exact .inl rfl
    | some th =>
      dsimp only
      cases hw : th.pc with
      | work r =>
        dsimp only
        have hcl : e.api ≠ .closed := fun hc => by
          have := (h.joined t th hg).2 (by unfold done; rw [hc]; exact (List.getElem?_eq_some_iff.1 hg).1)
          rw [hw] at this; cases this
        rw [if_neg hcl]
        rcases turn_cases e t th r ok h.q with h1 | ⟨_, h1⟩ | ⟨sv, h1, h2, h3⟩
        · rw [h1]
          exact .inr ⟨_, rfl, inv_move h hg (by rw [hw]; simp) (pc := .look) (by simp) h.q rfl rfl hcl rfl rfl e.threads (.inl ⟨rfl, fun r hr => hr⟩) rfl (by simp)⟩
        · rw [h1]
          exact .inr ⟨_, rfl, inv_move h hg (by rw [hw]; simp) (by simp) h.q rfl rfl hcl rfl rfl e.threads (.inl ⟨rfl, fun r hr => hr⟩) rfl (by simp)⟩
        · rw [h1]
          refine .inr ⟨_, rfl, inv_move h hg (by rw [hw]; simp) (pc := .look) (by simp) h2 h3 rfl hcl rfl rfl (wakeAll e.threads) (.inr rfl) rfl (by simp)⟩
      | _ => exact .inl rfl
  | close =>
    simp only [step]
    rw [show (b || starts .close) = b by simp [starts]]
    by_cases hi : e.api = .idle
    · rw [if_pos hi]
      refine .inr ⟨_, rfl, inv_wakeAll h ⟨h.q.cur, h.q.cnt, h.q.cntU⟩ ?_ ?_ (by rw [hi]; simp) (by simp) rfl rfl rfl⟩
      · simp [Service.doShutdown]
      · simp [done, hi]
    · rw [if_neg hi]; exact .inl rfl
  | join =>
    simp only [step]
    rw [show (b || starts .join) = b by simp [starts]]
    cases ha : e.api with
    | idle => exact .inl rfl
    | closed => exact .inl rfl
    | joining i =>
      dsimp only
      have hcl : e.api ≠ .closed := by rw [ha]; simp
      have hd : done e = i := by unfold done; rw [ha]
      unfold join
      by_cases hi : i < e.count
      · rw [if_pos hi]
        obtain ⟨ws, h1, h2⟩ := h.slots hcl (by omega)
        obtain ⟨f, hf⟩ := h2 i hi
        rw [h1]
        dsimp only
        rw [hf]
        dsimp only
        have hlen := h.len hcl
        have hg : e.threads[i]? = some (e.threads[i]'(by omega)) := List.getElem?_eq_getElem (by omega)
        generalize e.threads[i]'(by omega) = th at hg
        rw [hg]
        dsimp only
        have hnj : th.pc ≠ .joined := fun hh => by
          have := (h.joined i th hg).1 hh
          omega
        cases hp : th.pc with
        | ended =>
          refine .inr ⟨_, rfl, ?_⟩
          refine ⟨h.q, ?_, ?_, ?_, ?_, ?_, ?_, ?_, ?_⟩
          · have := h.shut
            rw [ha] at this
            simpa [setPc] using this
          · intro x hx hw
            rcases List.mem_or_eq_of_mem_set hx with hx | rfl
            · exact h.awake x hx hw
            · simp at hw
          · intro hb
            have := h.not_yet hb
            rw [this] at hlen
            simp at hlen; omega
          · intro _; simp [setPc, hlen]
          · intro _ _; exact ⟨ws, h1, h2⟩
          · intro j x hx
            show _ ↔ j < i + 1
            have hx : (e.threads.set i ⟨th.filter, .joined⟩)[j]? = some x := hx
            rw [List.getElem?_set] at hx
            by_cases hij : i = j
            · subst hij
              rw [if_pos rfl, if_pos (by omega)] at hx
              simp only [Option.some.injEq] at hx
              subst hx
              simp
            · rw [if_neg hij] at hx
              rw [h.joined j x hx, hd]
              omega
          · show i + 1 ≤ (e.threads.set i _).length
            rw [List.length_set]; omega
          · intro hx; cases hx
        | joined => exact absurd hp hnj
        | look => exact .inl rfl
        | wait => exact .inl rfl
        | work r => exact .inl rfl
      · rw [if_neg hi]
        refine .inr ⟨_, rfl, ?_⟩
        have hlen := h.len hcl
        have hle := h.le
        rw [hd] at hle
        have hsh : e.service.shutdown = true := h.shut.2 (by rw [ha]; simp)
        refine ⟨⟨by simp, by simp, by simp⟩, ?_, ?_, h.not_yet, ?_, ?_, ?_, ?_, ?_⟩
        · simp [hsh]
        · intro x hx hw
          have := (h.awake x hx hw).1
          rw [hsh] at this; cases this
        · intro hx; exact absurd rfl hx
        · intro hx; exact absurd rfl hx
        · intro j x hx
          have := h.joined j x hx
          rw [hd] at this
          rw [this]
          have hj := (List.getElem?_eq_some_iff.1 hx).1
          show _ ↔ j < e.threads.length
          omega
        · exact Nat.le_refl _
        · intro _; exact ⟨rfl, rfl⟩

/-! ## Closing ends -/

def cost (t : Thread) : Nat :=
  match t.pc with
  | .look => 1
  | .wait => 2
  | .work r => 2 + (r.actions.length - r.current)
  | _ => 0

def left (e : Env) : Nat :=
  match e.api with
  | .idle => 0
  | .joining i => e.count - i + 1
  | .closed => 0

def measure (e : Env) : Nat := (e.threads.map cost).sum + left e

theorem sum_set (ts : List Thread) (t : Nat) (th th' : Thread) (h : ts[t]? = some th) :
    ((ts.set t th').map cost).sum + cost th = (ts.map cost).sum + cost th' := by
  induction ts generalizing t with
  | nil => simp at h
  | cons a l ih =>
    cases t with
    | zero =>
      simp only [List.getElem?_cons_zero, Option.some.injEq] at h
      subst h
      simp only [List.set_cons_zero, List.map_cons, List.sum_cons]; omega
    | succ t =>
      have := ih t (by simpa using h)
      simp only [List.set_cons_succ, List.map_cons, List.sum_cons]; omega

theorem wakeAll_id (ts : List Thread) (h : ∀ t ∈ ts, t.pc ≠ .wait) : wakeAll ts = ts := by
  unfold wakeAll
  rw [List.map_congr_left (g := id)]
  · simp
  · intro t ht
    rw [if_neg (h t ht)]; rfl

theorem no_wait {b : Bool} {e : Env} (h : Inv b e) (hc : e.api ≠ .idle) : ∀ t ∈ e.threads, t.pc ≠ .wait := by
  intro t ht hw
  have := (h.awake t ht hw).1
  rw [h.shut.2 hc] at this; cases this

/-- A step while closing: it uses up something if it is the environment's own. -/
theorem step_less {b : Bool} {e e' : Env} (ev : Event) (h : Inv b e) (hc : e.api ≠ .idle) (hs : step e ev = .ok e') :
    e'.api ≠ .idle ∧ measure e' + (if Own ev then 1 else 0) ≤ measure e := by
  have hsh := h.shut.2 hc
  have hnw := no_wait h hc
  cases ev with
  | open_ w u o => simp only [step] at hs; rw [if_neg hc] at hs; cases hs
  | close => simp only [step] at hs; rw [if_neg hc] at hs; cases hs
  | add id as =>
    simp only [step] at hs
    by_cases hcl : e.api = .closed
    · rw [if_pos hcl] at hs; cases hs
    · rw [if_neg hcl] at hs
      obtain ⟨sv, h1, h2⟩ := Res.bind_eq_ok.1 hs
      cases h2
      refine ⟨hc, ?_⟩
      simp only [measure, left, Own, wakeAll_id _ hnw]
      simp
  | wake t =>
    simp only [step] at hs
    cases hg : e.threads[t]? with
    | none => rw [hg] at hs; cases hs
    | some th =>
      rw [hg] at hs
      dsimp only at hs
      rw [if_neg (hnw th (List.mem_of_getElem? hg))] at hs
      cases hs
  | look t =>
    simp only [step] at hs
    cases hg : e.threads[t]? with
    | none => rw [hg] at hs; cases hs
    | some th =>
      rw [hg] at hs
      dsimp only at hs
      by_cases hw : th.pc = .look
      · rw [if_pos hw] at hs
        by_cases hcl : e.api = .closed
        · rw [if_pos hcl] at hs; cases hs
        · rw [if_neg hcl] at hs
          have hn : e.service.next th.filter = .ok (.shutdown, e.service) := by rw [Service.next, if_pos hsh]
          rw [look, hn, Res.bind_ok] at hs
          cases hs
          refine ⟨hc, ?_⟩
          have := sum_set e.threads t th ⟨th.filter, .ended⟩ hg
          have c1 : cost th = 1 := by unfold cost; rw [hw]
          have c2 : cost ⟨th.filter, .ended⟩ = 0 := rfl
          simp only [measure, left, setPc, Own, if_true]
          omega
      · rw [if_neg hw] at hs; cases hs
  | turn t ok =>
    simp only [step] at hs
    cases hg : e.threads[t]? with
    | none => rw [hg] at hs; cases hs
    | some th =>
      rw [hg] at hs
      dsimp only at hs
      cases hw : th.pc with
      | work r =>
        rw [hw] at hs
        dsimp only at hs
        by_cases hcl : e.api = .closed
        · rw [if_pos hcl] at hs; cases hs
        · rw [if_neg hcl] at hs
          have c1 : cost th = 2 + (r.actions.length - r.current) := by unfold cost; rw [hw]
          rcases turn_cases e t th r ok h.q with h1 | ⟨hlt, h1⟩ | ⟨sv, h1, h2, h3⟩
          · rw [h1] at hs; cases hs
            refine ⟨hc, ?_⟩
            have := sum_set e.threads t th ⟨th.filter, .look⟩ hg
            have c2 : cost ⟨th.filter, .look⟩ = 1 := rfl
            simp only [measure, left, setPc, Own, if_true]
            omega
          · rw [h1] at hs; cases hs
            refine ⟨hc, ?_⟩
            have := sum_set e.threads t th ⟨th.filter, .work { r with current := r.current + 1 }⟩ hg
            have c2 : cost ⟨th.filter, .work { r with current := r.current + 1 }⟩ = 2 + (r.actions.length - (r.current + 1)) := rfl
            simp only [measure, left, setPc, Own, if_true]
            omega
          · rw [h1] at hs; cases hs
            refine ⟨hc, ?_⟩
            have := sum_set e.threads t th ⟨th.filter, .look⟩ hg
            have c2 : cost ⟨th.filter, .look⟩ = 1 := rfl
            simp only [measure, left, setPc, Own, if_true, wakeAll_id _ hnw]
            omega
      | look => rw [hw] at hs; cases hs
      | wait => rw [hw] at hs; cases hs
      | ended => rw [hw] at hs; cases hs
      | joined => rw [hw] at hs; cases hs
  | join =>
    simp only [step] at hs
    cases ha : e.api with
    | idle => exact absurd ha hc
    | closed => rw [ha] at hs; cases hs
    | joining i =>
      rw [ha] at hs
      dsimp only at hs
      unfold join at hs
      by_cases hi : i < e.count
      · rw [if_pos hi] at hs
        cases hwk : e.workers with
        | none => rw [hwk] at hs; cases hs
        | some ws =>
          rw [hwk] at hs
          dsimp only at hs
          cases hw : ws[i]? with
          | none => rw [hw] at hs; cases hs
          | some w =>
            rw [hw] at hs
            dsimp only at hs
            cases ht : w.thread with
            | none => rw [ht] at hs; cases hs
            | some t =>
              rw [ht] at hs
              dsimp only at hs
              cases hg : e.threads[t]? with
              | none => rw [hg] at hs; cases hs
              | some th =>
                rw [hg] at hs
                dsimp only at hs
                cases hp : th.pc with
                | ended =>
                  rw [hp] at hs
                  cases hs
                  refine ⟨by simp, ?_⟩
                  have := sum_set e.threads t th ⟨th.filter, .joined⟩ hg
                  have c1 : cost th = 0 := by unfold cost; rw [hp]
                  have c2 : cost ⟨th.filter, .joined⟩ = 0 := rfl
                  simp only [measure, left, setPc, Own, if_true, ha]
                  omega
                | look => rw [hp] at hs; cases hs
                | wait => rw [hp] at hs; cases hs
                | work r => rw [hp] at hs; cases hs
                | joined => rw [hp] at hs; cases hs
      · rw [if_neg hi] at hs
        cases hs
        refine ⟨by simp, ?_⟩
        simp only [measure, left, Own, if_true, ha]
        omega

/-- The invariant after a step that was possible while closing. -/
theorem inv_closing {b : Bool} {e e' : Env} (ev : Event) (h : Inv b e) (hc : e.api ≠ .idle) (hs : step e ev = .ok e') : Inv b e' := by
  have hns : starts ev = false := by
    cases ev with
    | open_ w u o => simp only [step] at hs; rw [if_neg hc] at hs; cases hs
    | _ => rfl
  have key : step e ev = notNow ∨ ∃ e', step e ev = .ok e' ∧ Inv (b || starts ev) e' := by
    refine inv_step ev h ?_ ?_ ?_
    · rintro id as rfl
      simp only [step] at hs
      intro hn
      subst hn
      by_cases hcl : e.api = .closed
      · rw [if_pos hcl] at hs; cases hs
      · rw [if_neg hcl, Service.add, if_pos rfl] at hs; cases hs
    · rintro id as rfl hcl
      simp only [step] at hs
      rw [if_pos hcl] at hs; cases hs
    · rintro w u o rfl
      simp only [step] at hs; rw [if_neg hc] at hs; cases hs
  rcases key with h1 | ⟨e2, h1, h2⟩
  · rw [h1] at hs; cases hs
  · rw [h1] at hs; cases hs
    rw [hns, Bool.or_false] at h2
    exact h2

theorem run_less {b : Bool} : ∀ (evs : List Event) (e e' : Env), Inv b e → e.api ≠ .idle → run e evs = .ok e' →
    (evs.filter Own).length + measure e' ≤ measure e
  | [], e, e', _, _, hr => by cases hr; simp
  | ev :: evs, e, e', h, hc, hr => by
    rw [run] at hr
    obtain ⟨e1, h1, h2⟩ := Res.bind_eq_ok.1 hr
    obtain ⟨h3, h4⟩ := step_less ev h hc h1
    have h5 := run_less evs e1 e' (inv_closing ev h hc h1) h3 h2
    by_cases ho : Own ev = true
    · rw [List.filter_cons_of_pos ho, List.length_cons]
      rw [if_pos ho] at h4; omega
    · rw [List.filter_cons_of_neg ho]
      rw [if_neg ho] at h4; omega

/-- Somebody can go on. -/
theorem inv_goes {b : Bool} {e : Env} (h : Inv b e) (i : Nat) (ha : e.api = .joining i) : ∃ ev e', Own ev = true ∧ step e ev = .ok e' := by
  have hc : e.api ≠ .idle := by rw [ha]; simp
  have hcl : e.api ≠ .closed := by rw [ha]; simp
  have hd : done e = i := by unfold done; rw [ha]
  by_cases hi : i < e.count
  · obtain ⟨ws, h1, h2⟩ := h.slots hcl (by omega)
    obtain ⟨f, hf⟩ := h2 i hi
    have hlen := h.len hcl
    have hg : e.threads[i]? = some (e.threads[i]'(by omega)) := List.getElem?_eq_getElem (by omega)
    generalize e.threads[i]'(by omega) = th at hg
    have hnj : th.pc ≠ .joined := fun hh => by
      have := (h.joined i th hg).1 hh
      omega
    cases hp : th.pc with
    | joined => exact absurd hp hnj
    | wait => exact absurd hp (no_wait h hc th (List.mem_of_getElem? hg))
    | look =>
      have hn : e.service.next th.filter = .ok (.shutdown, e.service) := by rw [Service.next, if_pos (h.shut.2 hc)]
      refine ⟨.look i, setPc e i th.filter .ended, rfl, ?_⟩
      simp only [step, hg, hp, if_true, if_neg hcl, look, hn, Res.bind_ok]
    | work r =>
      have : ∃ e', turn e i th r true = .ok e' := by
        rcases turn_cases e i th r true h.q with h1 | ⟨_, h1⟩ | ⟨sv, h1, _⟩ <;> exact ⟨_, h1⟩
      obtain ⟨e', he⟩ := this
      refine ⟨.turn i true, e', rfl, ?_⟩
      simp only [step, hg, hp, if_neg hcl, he]
    | ended =>
      refine ⟨.join, { setPc e i th.filter .joined with api := .joining (i + 1) }, rfl, ?_⟩
      simp only [step, ha, join, if_pos hi, h1, hf, hg, hp]
  · refine ⟨.join, { e with workers := none, count := 0, api := .closed, service := { e.service with list := [], count := 0, countUpload := 0 } }, rfl, ?_⟩
    simp only [step, ha, join, if_neg hi]

theorem inv_good {b : Bool} {e : Env} (h : Inv b e) : Good e where
  awake := h.awake
  gone := by
    intro hc
    refine ⟨?_, h.gone hc⟩
    intro t ht
    obtain ⟨j, hj, he⟩ := List.getElem_of_mem ht
    refine (h.joined j t (by rw [List.getElem?_eq_getElem hj, he])).2 ?_
    unfold done; rw [hc]; exact hj
  goes := fun i hi => inv_goes h i hi
  ends := by
    intro hc
    refine ⟨measure e, fun evs e' hr => ?_⟩
    have := run_less evs e e' h hc hr
    omega

/-- Histories. -/
theorem run_good : ∀ (evs : List Event) (b : Bool) (e : Env), Inv b e → Legal evs → InTime e evs →
    (∀ w u o, .open_ w u o ∈ evs → o = .early ∨ o = .done) → (evs.filter starts).length + (if b then 1 else 0) ≤ 1 →
    (∀ m, run e evs ≠ .ub m ∧ run e evs ≠ .abort m) ∧ ∀ e', run e evs = .ok e' → Good e'
  | [], b, e, h, _, _, _, _ => ⟨fun m => ⟨by simp [run], by simp [run]⟩, fun e' hr => by cases hr; exact inv_good h⟩
  | ev :: evs, b, e, h, hl, ht, ho, hs => by
    rw [run]
    have key : step e ev = notNow ∨ ∃ e', step e ev = .ok e' ∧ Inv (b || starts ev) e' := by
      refine inv_step ev h (fun id as hx => hl id as (by rw [hx]; simp)) (fun id as hx => ht.1 id as hx) ?_
      rintro w u o rfl
      rcases ho w u o (by simp) with h1 | h1
      · exact .inl h1
      · refine .inr ⟨h1, ?_⟩
        subst h1
        rw [List.filter_cons_of_pos (by rfl), List.length_cons] at hs
        cases b with
        | true => simp at hs
        | false => rfl
    rcases key with h1 | ⟨e1, h1, h2⟩
    · rw [h1]
      exact ⟨fun m => ⟨by simp [notNow, Res.bind], by simp [notNow, Res.bind]⟩, fun e' hr => by simp [notNow, Res.bind] at hr⟩
    · rw [h1, Res.bind_ok]
      refine run_good evs _ e1 h2 (fun id as hx => hl id as (by simp [hx])) (ht.2 e1 h1) (fun w u o hx => ho w u o (by simp [hx])) ?_
      by_cases hst : starts ev = true
      · rw [List.filter_cons_of_pos hst, List.length_cons] at hs
        have : b = false := by cases b with
          | true => simp at hs
          | false => rfl
        rw [this, hst]
        rw [this] at hs
        simp at hs ⊢; omega
      · rw [List.filter_cons_of_neg hst] at hs
        have : starts ev = false := by simpa using hst
        rw [this, Bool.or_false]; exact hs

end Verif.C69
