import Verif.Spec.C33

namespace Verif.C33

def up (r : SReq) : Bool := r.actions[r.current]? == some .upload

theorem isUpload_ok (r : SReq) (h : r.current < r.actions.length) : r.isUpload = .ok (up r) := by
  unfold SReq.isUpload up
  rw [List.getElem?_eq_getElem h]
  simp

theorem accepts_any (r : SReq) : accepts .any r = true := rfl
theorem accepts_without (r : SReq) : accepts .withoutUpload r = !(up r) := by simp [accepts, up, bne]
theorem accepts_upload (r : SReq) : accepts .upload r = up r := rfl

/-- Queue counters. -/
structure QInv (s : Service) : Prop where
  cur : ∀ r ∈ s.list, r.current < r.actions.length
  cnt : s.count = s.list.length
  cntU : s.countUpload = (s.list.filter up).length

theorem unlinkFirst_none (want : Bool) (l : List SReq) (h : ∀ r ∈ l, r.current < r.actions.length)
    (h2 : ∀ r ∈ l, up r ≠ want) : Service.unlinkFirst want l = .ok (none, l) := by
  induction l with
  | nil => rfl
  | cons r rs ih =>
    rw [Service.unlinkFirst, isUpload_ok r (h r (by simp)), Res.bind_ok, if_neg (h2 r (by simp)),
      ih (fun q hq => h q (by simp [hq])) (fun q hq => h2 q (by simp [hq])), Res.bind_ok]

theorem unlinkFirst_some (want : Bool) (A B : List SReq) (r : SReq)
    (h : ∀ q ∈ A ++ r :: B, q.current < q.actions.length)
    (h2 : ∀ q ∈ A, up q ≠ want) (h3 : up r = want) :
    Service.unlinkFirst want (A ++ r :: B) = .ok (some r, A ++ B) := by
  induction A with
  | nil =>
    rw [List.nil_append, Service.unlinkFirst, isUpload_ok r (h r (by simp)), Res.bind_ok, if_pos h3]
    rfl
  | cons a A ih =>
    rw [List.cons_append, Service.unlinkFirst, isUpload_ok a (h a (by simp)), Res.bind_ok,
      if_neg (h2 a (by simp)), ih (fun q hq => h q (List.mem_cons_of_mem _ hq)) (fun q hq => h2 q (by simp [hq])),
      Res.bind_ok]
    rfl

/-- Split a queue at the first request a worker accepts. -/
theorem split_first (p : SReq → Bool) (l : List SReq) :
    (∀ r ∈ l, p r = false) ∨ ∃ A r B, l = A ++ r :: B ∧ (∀ q ∈ A, p q = false) ∧ p r = true := by
  induction l with
  | nil => exact .inl (by simp)
  | cons a l ih =>
    cases ha : p a with
    | true => exact .inr ⟨[], a, l, rfl, by simp, ha⟩
    | false =>
      rcases ih with h | ⟨A, r, B, e, h1, h2⟩
      · refine .inl ?_
        intro r hr
        rcases List.mem_cons.1 hr with rfl | hr
        · exact ha
        · exact h r hr
      · refine .inr ⟨a :: A, r, B, by rw [e]; rfl, ?_, h2⟩
        intro q hq
        rcases List.mem_cons.1 hq with rfl | hq
        · exact ha
        · exact h1 q hq

/-- service_fetch takes the first request the worker accepts, if any. -/
theorem fetch_none (s : Service) (f : Filter) (h : QInv s) (hn : ∀ r ∈ s.list, accepts f r = false) :
    s.fetch f = .ok (none, s) := by
  unfold Service.fetch
  split
  · rfl
  · rename_i hc
    cases f with
    | any =>
      exfalso; apply hc; rw [h.cnt]
      cases hl : s.list with
      | nil => rfl
      | cons a l => have := hn a (by simp [hl]); simp [accepts] at this
    | withoutUpload =>
      dsimp only
      split
      · rfl
      · rw [unlinkFirst_none false s.list h.cur, Res.bind_ok]
        intro r hr
        have := hn r hr
        rw [accepts_without] at this
        simpa using this
    | upload =>
      dsimp only
      split
      · rfl
      · rw [unlinkFirst_none true s.list h.cur, Res.bind_ok]
        intro r hr
        have := hn r hr
        rw [accepts_upload] at this
        simp [this]

theorem fetch_some (s : Service) (f : Filter) (h : QInv s) (A B : List SReq) (r : SReq)
    (e : s.list = A ++ r :: B) (hA : ∀ q ∈ A, accepts f q = false) (hr : accepts f r = true) :
    ∃ s', s.fetch f = .ok (some r, s') ∧ s'.list = A ++ B ∧ QInv s' ∧ s'.shutdown = s.shutdown := by
  have hcur := h.cur
  have hcnt := h.cnt
  have hcntU := h.cntU
  have hlen : s.list.length = (A ++ B).length + 1 := by rw [e]; simp; omega
  have hne : s.count ≠ 0 := by rw [hcnt, hlen]; omega
  have hfilt : (s.list.filter up).length = ((A ++ B).filter up).length + (if up r then 1 else 0) := by
    rw [e]
    simp only [List.filter_append, List.filter_cons, List.length_append]
    split <;> simp <;> omega
  have hsub : ∀ q ∈ A ++ B, q ∈ s.list := by
    intro q hq
    rw [e]
    rcases List.mem_append.1 hq with hq | hq
    · simp [hq]
    · simp [hq]
  have hrc := hcur r (by rw [e]; simp)
  unfold Service.fetch
  rw [if_neg hne]
  cases f with
  | any =>
    cases A with
    | cons a A => have := hA a (by simp); simp [accepts] at this
    | nil =>
      dsimp only
      rw [e, List.nil_append]
      dsimp only
      rw [isUpload_ok r hrc, Res.bind_ok]
      refine ⟨_, rfl, rfl, ⟨fun q hq => hcur q (hsub q hq), ?_, ?_⟩, rfl⟩
      · dsimp only; rw [hcnt, hlen]; simp
      · dsimp only; rw [hcntU, hfilt]
        cases up r <;> simp
  | withoutUpload =>
    rw [accepts_without] at hr
    have hr' : up r = false := by simpa using hr
    have hne2 : ¬ s.count - s.countUpload = 0 := by
      rw [hcnt, hcntU, hlen, hfilt, hr']
      have := List.length_filter_le up (A ++ B)
      simp only [Bool.false_eq_true, if_false]
      omega
    dsimp only
    rw [if_neg hne2, e, unlinkFirst_some false A B r (by rw [← e]; exact hcur)
      (fun q hq => by have := hA q hq; rw [accepts_without] at this; simpa using this) hr', Res.bind_ok]
    refine ⟨_, rfl, rfl, ⟨fun q hq => hcur q (hsub q hq), ?_, ?_⟩, rfl⟩
    · dsimp only; rw [hcnt, hlen]; simp
    · dsimp only; rw [hcntU, hfilt, hr']; simp
  | upload =>
    rw [accepts_upload] at hr
    have hne2 : ¬ s.countUpload = 0 := by
      rw [hcntU, hfilt, hr]; simp; omega
    dsimp only
    rw [if_neg hne2, e, unlinkFirst_some true A B r (by rw [← e]; exact hcur)
      (fun q hq => by have := hA q hq; rw [accepts_upload] at this; simp [this]) hr, Res.bind_ok]
    refine ⟨_, rfl, rfl, ⟨fun q hq => hcur q (hsub q hq), ?_, ?_⟩, rfl⟩
    · dsimp only; rw [hcnt, hlen]; simp
    · dsimp only; rw [hcntU, hfilt, hr]; simp

theorem schedule_spec (s : Service) (r : SReq) (h : QInv s) (hr : r.current < r.actions.length) :
    ∃ s', s.schedule r = .ok s' ∧ s'.list = s.list ++ [r] ∧ QInv s' := by
  unfold Service.schedule
  rw [isUpload_ok r hr, Res.bind_ok]
  refine ⟨_, rfl, rfl, ⟨?_, ?_, ?_⟩⟩
  · intro q hq
    rcases List.mem_append.1 hq with hq | hq
    · exact h.cur q hq
    · rw [List.mem_singleton] at hq; rw [hq]; exact hr
  · dsimp only; rw [h.cnt]; simp
  · dsimp only
    rw [h.cntU]
    simp only [List.filter_append, List.filter_cons, List.filter_nil, List.length_append]
    cases up r <;> simp

/-- `r` is in the queue or in somebody's hand. -/
def At (s : Workers) (r : SReq) : Prop := r ∈ s.service.list ∨ ∃ w, s.hand w = some r

theorem pending_iff (s : Workers) (i : Nat) : Pending s i ↔ ∃ r, At s r ∧ r.tag = i := by
  unfold Pending At
  constructor
  · rintro (⟨r, h1, h2⟩ | ⟨w, r, h1, h2⟩)
    · exact ⟨r, .inl h1, h2⟩
    · exact ⟨r, .inr ⟨w, h1⟩, h2⟩
  · rintro ⟨r, h1 | ⟨w, h1⟩, h2⟩
    · exact .inl ⟨r, h1, h2⟩
    · exact .inr ⟨w, r, h1, h2⟩

structure Inv (clean : Bool) (kind : Nat → Filter) (adds : List (List Action)) (s : Workers) : Prop where
  q : QInv s.service
  nodup : (s.service.list.map (·.tag)).Nodup
  apart : ∀ w r, s.hand w = some r → ∀ x ∈ s.service.list, x.tag ≠ r.tag
  one : ∀ w v r x, s.hand w = some r → s.hand v = some x → r.tag = x.tag → w = v
  known : ∀ r, At s r → adds[r.tag]? = some r.actions ∧ executed s r.tag = r.actions.take r.current
  gone : ∀ i as, adds[i]? = some as → ¬ Pending s i → executed s i <+: as ∧ (clean = true → executed s i = as)
  unknown : ∀ i, adds[i]? = none → executed s i = []
  kinds : ∀ e ∈ s.log, Allowed (kind e.1) e.2.2

theorem executed_log (s : Workers) (h' : Nat → Option SReq) (w t : Nat) (a : Action) (i : Nat) :
    executed { s with hand := h', log := s.log ++ [(w, t, a)] } i =
      executed s i ++ (if t = i then [a] else []) := by
  unfold executed
  simp only [List.filter_append, List.map_append, List.filter_cons, List.filter_nil]
  by_cases h : t = i
  · simp [h]
  · simp [h]

theorem inv_init (clean : Bool) (kind : Nat → Filter) : Inv clean kind [] Workers.init where
  q := ⟨by simp [Workers.init, Service.init], rfl, rfl⟩
  nodup := by simp [Workers.init, Service.init]
  apart := by intro w r h; simp [Workers.init] at h
  one := by intro w v r x h; simp [Workers.init] at h
  known := by rintro r (h | ⟨w, h⟩) <;> simp [Workers.init, Service.init] at h
  gone := by intro i as h; simp at h
  unknown := by intro i _; rfl
  kinds := by intro e h; simp [Workers.init] at h

/-- Scheduling a new request. -/
theorem inv_add {clean kind adds s} (h : Inv clean kind adds s) (sv : Service) (id : Nat) (as : List Action)
    (h1 : sv.list = s.service.list ++ [⟨adds.length, id, 0, as⟩]) (h2 : QInv sv) :
    Inv clean kind (adds ++ [as]) { s with service := sv } := by
  have hlt : ∀ r, At s r → r.tag < adds.length := fun r hr =>
    (List.getElem?_eq_some_iff.1 (h.known r hr).1).1
  have hget : ∀ i, i < adds.length → (adds ++ [as])[i]? = adds[i]? := fun i hi => List.getElem?_append_left hi
  refine ⟨h2, ?_, ?_, h.one, ?_, ?_, ?_, h.kinds⟩
  · dsimp only
    rw [h1, List.map_append, List.nodup_append]
    refine ⟨h.nodup, by simp, ?_⟩
    intro a ha b hb
    obtain ⟨r, hr, rfl⟩ := List.mem_map.1 ha
    simp only [List.map_cons, List.map_nil, List.mem_singleton] at hb
    have := hlt r (.inl hr)
    omega
  · intro w r hw x hx
    dsimp only at hw hx
    rw [h1] at hx
    rcases List.mem_append.1 hx with hx | hx
    · exact h.apart w r hw x hx
    · rw [List.mem_singleton] at hx
      have := hlt r (.inr ⟨w, hw⟩)
      rw [hx]; dsimp only; omega
  · intro r hr
    have hr' : At s r ∨ r = ⟨adds.length, id, 0, as⟩ := by
      rcases hr with hr | hr
      · dsimp only at hr
        rw [h1] at hr
        rcases List.mem_append.1 hr with hr | hr
        · exact .inl (.inl hr)
        · exact .inr (by simpa using hr)
      · exact .inl (.inr hr)
    rcases hr' with hr' | rfl
    · rw [hget _ (hlt r hr')]
      exact h.known r hr'
    · refine ⟨by simp, ?_⟩
      dsimp only [List.take_zero]
      exact h.unknown _ (by simp)
  · intro i as' hi hp
    by_cases hlt' : i < adds.length
    · rw [hget i hlt'] at hi
      refine h.gone i as' hi (fun hp' => hp ?_)
      rw [pending_iff] at hp' ⊢
      obtain ⟨r, hr, e⟩ := hp'
      refine ⟨r, ?_, e⟩
      rcases hr with hr | hr
      · exact .inl (by dsimp only; rw [h1]; simp [hr])
      · exact .inr hr
    · have hlen := (List.getElem?_eq_some_iff.1 hi).1
      simp only [List.length_append, List.length_singleton] at hlen
      exfalso
      apply hp
      rw [pending_iff]
      exact ⟨⟨adds.length, id, 0, as⟩, .inl (by dsimp only; rw [h1]; simp), by dsimp only; omega⟩
  · intro i hi
    rw [List.getElem?_eq_none_iff, List.length_append] at hi
    exact h.unknown i (by rw [List.getElem?_eq_none_iff]; omega)

/-- A worker takes a request off the queue. -/
theorem inv_take {clean kind adds s} (h : Inv clean kind adds s) (w : Nat) (hw : s.hand w = none)
    (A B : List SReq) (r : SReq) (e : s.service.list = A ++ r :: B) (sv : Service)
    (h1 : sv.list = A ++ B) (h2 : QInv sv) :
    Inv clean kind adds { s with service := sv, hand := s.setHand w (some r) } := by
  have hat : ∀ x, At { s with service := sv, hand := s.setHand w (some r) } x ↔ At s x := by
    intro x
    unfold At Workers.setHand
    dsimp only
    rw [h1, e]
    constructor
    · rintro (hx | ⟨v, hv⟩)
      · refine .inl ?_
        rcases List.mem_append.1 hx with hx | hx <;> simp [hx]
      · split at hv
        · cases hv; exact .inl (by simp)
        · exact .inr ⟨v, hv⟩
    · rintro (hx | ⟨v, hv⟩)
      · rcases List.mem_append.1 hx with hx | hx
        · exact .inl (by simp [hx])
        · rcases List.mem_cons.1 hx with rfl | hx
          · exact .inr ⟨w, by simp⟩
          · exact .inl (by simp [hx])
      · refine .inr ⟨v, ?_⟩
        rw [if_neg]
        · exact hv
        · rintro rfl; rw [hw] at hv; cases hv
  have hnd := h.nodup
  rw [e, List.map_append, List.map_cons, List.nodup_append, List.nodup_cons] at hnd
  obtain ⟨n1, ⟨n2, n3⟩, n4⟩ := hnd
  refine ⟨h2, ?_, ?_, ?_, ?_, ?_, h.unknown, h.kinds⟩
  · dsimp only
    rw [h1, List.map_append, List.nodup_append]
    exact ⟨n1, n3, fun a ha b hb => n4 a ha b (List.mem_cons_of_mem _ hb)⟩
  · intro v x hv y hy
    dsimp only [Workers.setHand] at hv hy
    rw [h1] at hy
    split at hv
    · cases hv
      rcases List.mem_append.1 hy with hy | hy
      · exact n4 _ (List.mem_map_of_mem hy) _ (List.mem_cons_self)
      · intro e'; apply n2; rw [← e']; exact List.mem_map_of_mem hy
    · refine h.apart v x hv y ?_
      rw [e]
      rcases List.mem_append.1 hy with hy | hy <;> simp [hy]
  · intro v u x y hv hu exy
    dsimp only [Workers.setHand] at hv hu
    split at hv
    · cases hv
      split at hu
      · omega
      · exact absurd exy (h.apart u y hu r (by rw [e]; simp))
    · split at hu
      · cases hu
        exact absurd exy.symm (h.apart v x hv r (by rw [e]; simp))
      · exact h.one v u x y hv hu exy
  · intro x hx
    exact h.known x ((hat x).1 hx)
  · intro i as hi hp
    refine h.gone i as hi (fun hp' => hp ?_)
    rw [pending_iff] at hp' ⊢
    obtain ⟨x, hx, ex⟩ := hp'
    exact ⟨x, (hat x).2 hx, ex⟩

/-- A worker of the wrong kind puts its request back. -/
theorem inv_back {clean kind adds s} (h : Inv clean kind adds s) (w : Nat) (r : SReq) (hw : s.hand w = some r)
    (sv : Service) (h1 : sv.list = s.service.list ++ [r]) (h2 : QInv sv) :
    Inv clean kind adds { s with service := sv, hand := s.setHand w none } := by
  have hat : ∀ x, At { s with service := sv, hand := s.setHand w none } x ↔ At s x := by
    intro x
    unfold At Workers.setHand
    dsimp only
    rw [h1]
    constructor
    · rintro (hx | ⟨v, hv⟩)
      · rcases List.mem_append.1 hx with hx | hx
        · exact .inl hx
        · rw [List.mem_singleton] at hx; subst hx; exact .inr ⟨w, hw⟩
      · split at hv
        · cases hv
        · exact .inr ⟨v, hv⟩
    · rintro (hx | ⟨v, hv⟩)
      · exact .inl (by simp [hx])
      · by_cases hvw : v = w
        · subst hvw; rw [hw] at hv; cases hv; exact .inl (by simp)
        · exact .inr ⟨v, by rw [if_neg hvw]; exact hv⟩
  refine ⟨h2, ?_, ?_, ?_, ?_, ?_, h.unknown, h.kinds⟩
  · dsimp only
    rw [h1, List.map_append, List.nodup_append]
    refine ⟨h.nodup, by simp, ?_⟩
    intro a ha b hb
    obtain ⟨x, hx, rfl⟩ := List.mem_map.1 ha
    simp only [List.map_cons, List.map_nil, List.mem_singleton] at hb
    rw [hb]
    exact h.apart w r hw x hx
  · intro v x hv y hy
    dsimp only [Workers.setHand] at hv hy
    rw [h1] at hy
    split at hv
    · cases hv
    · rename_i hvw
      rcases List.mem_append.1 hy with hy | hy
      · exact h.apart v x hv y hy
      · rw [List.mem_singleton] at hy
        subst hy
        intro e
        exact hvw (h.one w v y x hw hv e).symm
  · intro v u x y hv hu exy
    dsimp only [Workers.setHand] at hv hu
    split at hv
    · cases hv
    · split at hu
      · cases hu
      · exact h.one v u x y hv hu exy
  · intro x hx
    exact h.known x ((hat x).1 hx)
  · intro i as hi hp
    refine h.gone i as hi (fun hp' => hp ?_)
    rw [pending_iff] at hp' ⊢
    obtain ⟨x, hx, ex⟩ := hp'
    exact ⟨x, (hat x).2 hx, ex⟩

/-- A request leaves a worker's hand for good. -/
theorem inv_drop {clean kind adds s} (h : Inv clean kind adds s) (w : Nat) (r : SReq) (hw : s.hand w = some r)
    (log : List (Nat × Nat × Action))
    (hother : ∀ i, i ≠ r.tag → executed { s with hand := s.setHand w none, log := log } i = executed s i)
    (hthis : executed { s with hand := s.setHand w none, log := log } r.tag <+: r.actions)
    (hclean : clean = true → executed { s with hand := s.setHand w none, log := log } r.tag = r.actions)
    (hk : ∀ e ∈ log, Allowed (kind e.1) e.2.2) :
    Inv clean kind adds { s with hand := s.setHand w none, log := log } := by
  have hat : ∀ x, At { s with hand := s.setHand w none, log := log } x → At s x ∧ x.tag ≠ r.tag := by
    rintro x (hx | ⟨v, hv⟩)
    · exact ⟨.inl hx, h.apart w r hw x hx⟩
    · dsimp only [Workers.setHand] at hv
      split at hv
      · cases hv
      · rename_i hvw
        exact ⟨.inr ⟨v, hv⟩, fun e => hvw (h.one v w x r hv hw e)⟩
  refine ⟨h.q, h.nodup, ?_, ?_, ?_, ?_, ?_, hk⟩
  · intro v x hv y hy
    dsimp only [Workers.setHand] at hv hy
    split at hv
    · cases hv
    · exact h.apart v x hv y hy
  · intro v u x y hv hu exy
    dsimp only [Workers.setHand] at hv hu
    split at hv
    · cases hv
    · split at hu
      · cases hu
      · exact h.one v u x y hv hu exy
  · intro x hx
    obtain ⟨a, b⟩ := hat x hx
    rw [hother _ b]
    exact h.known x a
  · intro i as hi hp
    by_cases hir : i = r.tag
    · subst hir
      have := (h.known r (.inr ⟨w, hw⟩)).1
      rw [this] at hi
      cases hi
      exact ⟨hthis, hclean⟩
    · rw [hother i hir]
      refine h.gone i as hi (fun hp' => hp ?_)
      rw [pending_iff] at hp' ⊢
      obtain ⟨x, hx, ex⟩ := hp'
      refine ⟨x, ?_, ex⟩
      rcases hx with hx | ⟨v, hv⟩
      · exact .inl hx
      · refine .inr ⟨v, ?_⟩
        dsimp only [Workers.setHand]
        rw [if_neg]
        · exact hv
        · rintro rfl; rw [hw] at hv; cases hv; exact hir ex.symm
  · intro i hi
    have hne : i ≠ r.tag := by
      rintro rfl
      rw [(h.known r (.inr ⟨w, hw⟩)).1] at hi
      cases hi
    rw [hother i hne]
    exact h.unknown i hi

/-- A worker executes the current action. -/
theorem inv_exec {clean kind adds s} (h : Inv clean kind adds s) (w : Nat) (r : SReq) (hw : s.hand w = some r)
    (a : Action) (ha : r.actions[r.current]? = some a) (hk : Allowed (kind w) a) :
    Inv clean kind adds { s with
      hand := s.setHand w (some { r with current := r.current + 1 }),
      log := s.log ++ [(w, r.tag, a)] } := by
  have hother : ∀ i, i ≠ r.tag → executed { s with
      hand := s.setHand w (some { r with current := r.current + 1 }),
      log := s.log ++ [(w, r.tag, a)] } i = executed s i := by
    intro i hi
    rw [executed_log, if_neg (fun e => hi e.symm), List.append_nil]
  have hsame : executed { s with
      hand := s.setHand w (some { r with current := r.current + 1 }),
      log := s.log ++ [(w, r.tag, a)] } r.tag = r.actions.take (r.current + 1) := by
    rw [executed_log, if_pos rfl, (h.known r (.inr ⟨w, hw⟩)).2]
    rw [List.take_succ, ha]
    rfl
  have hat : ∀ x, At { s with
      hand := s.setHand w (some { r with current := r.current + 1 }),
      log := s.log ++ [(w, r.tag, a)] } x → (At s x ∧ x.tag ≠ r.tag) ∨ x = { r with current := r.current + 1 } := by
    rintro x (hx | ⟨v, hv⟩)
    · exact .inl ⟨.inl hx, h.apart w r hw x hx⟩
    · dsimp only [Workers.setHand] at hv
      split at hv
      · cases hv; exact .inr rfl
      · rename_i hvw
        exact .inl ⟨.inr ⟨v, hv⟩, fun e => hvw (h.one v w x r hv hw e)⟩
  refine ⟨h.q, h.nodup, ?_, ?_, ?_, ?_, ?_, ?_⟩
  · intro v x hv y hy
    dsimp only [Workers.setHand] at hv hy
    split at hv
    · cases hv; exact h.apart w r hw y hy
    · exact h.apart v x hv y hy
  · intro v u x y hv hu exy
    dsimp only [Workers.setHand] at hv hu
    split at hv
    · cases hv
      split at hu
      · omega
      · rename_i h3 h4
        exact absurd (h.one w u r y hw hu exy).symm h4
    · split at hu
      · cases hu
        rename_i h3 h4
        exact absurd (h.one v w x r hv hw exy) h3
      · exact h.one v u x y hv hu exy
  · intro x hx
    rcases hat x hx with ⟨h1, h2⟩ | rfl
    · rw [hother _ h2]
      exact h.known x h1
    · exact ⟨(h.known r (.inr ⟨w, hw⟩)).1, hsame⟩
  · intro i as hi hp
    have hne : i ≠ r.tag := by
      rintro rfl
      apply hp
      rw [pending_iff]
      exact ⟨{ r with current := r.current + 1 }, .inr ⟨w, by simp [Workers.setHand]⟩, rfl⟩
    rw [hother i hne]
    refine h.gone i as hi (fun hp' => hp ?_)
    rw [pending_iff] at hp' ⊢
    obtain ⟨x, hx, ex⟩ := hp'
    refine ⟨x, ?_, ex⟩
    rcases hx with hx | ⟨v, hv⟩
    · exact .inl hx
    · refine .inr ⟨v, ?_⟩
      dsimp only [Workers.setHand]
      rw [if_neg]
      · exact hv
      · rintro rfl; rw [hw] at hv; cases hv; exact hne ex.symm
  · intro i hi
    have hne : i ≠ r.tag := by
      rintro rfl
      rw [(h.known r (.inr ⟨w, hw⟩)).1] at hi
      cases hi
    rw [hother i hne]
    exact h.unknown i hi
  · intro e he
    dsimp only at he
    rcases List.mem_append.1 he with he | he
    · exact h.kinds e he
    · rw [List.mem_singleton] at he
      rw [he]; exact hk

theorem filter_ok (r : SReq) (f : Filter) (a : Action) (ha : r.actions[r.current]? = some a) :
    ∃ b, serviceFilter r f = .ok b ∧ (b = true → Allowed f a) := by
  have hlt := (List.getElem?_eq_some_iff.1 ha).1
  have hup : up r = (a == .upload) := by unfold up; rw [ha]; rfl
  cases f with
  | any => exact ⟨true, rfl, fun _ => trivial⟩
  | withoutUpload =>
    refine ⟨!(a == .upload), by rw [serviceFilter, isUpload_ok r hlt, Res.bind_ok, hup], ?_⟩
    intro h; simpa [Allowed] using h
  | upload =>
    refine ⟨a == .upload, by rw [serviceFilter, isUpload_ok r hlt, hup], ?_⟩
    intro h; simpa [Allowed] using h

theorem inv_step {clean kind adds s} (h : Inv clean kind adds s) (e : SEvent)
    (hlegal : ∀ id as, e = .add id as → as ≠ []) (hclean : clean = true → ∀ w, e ≠ .turn w false) :
    ∃ s', Workers.step kind adds.length s e = .ok s' ∧ Inv clean kind (adds ++ added [e]) s' := by
  cases e with
  | add id as =>
    have hne := hlegal id as rfl
    have hlen : 0 < as.length := by cases as with | nil => exact absurd rfl hne | cons _ _ => simp
    obtain ⟨sv, h1, h2, h3⟩ := schedule_spec s.service ⟨adds.length, id, 0, as⟩ h.q hlen
    refine ⟨_, by rw [Workers.step, Service.add, if_neg hne, h1, Res.bind_ok], ?_⟩
    exact inv_add h sv id as h2 h3
  | take w =>
    rw [show added [SEvent.take w] = [] from rfl, List.append_nil]
    unfold Workers.step
    dsimp only
    cases hw : s.hand w with
    | some r => exact ⟨s, rfl, h⟩
    | none =>
      dsimp only
      unfold Service.next
      cases hs : s.service.shutdown with
      | true => exact ⟨s, rfl, h⟩
      | false =>
        simp only [Bool.false_eq_true, if_false]
        rcases split_first (accepts (kind w)) s.service.list with hn | ⟨A, r, B, e, hA, hr⟩
        · rw [fetch_none s.service (kind w) h.q hn, Res.bind_ok]
          exact ⟨s, rfl, h⟩
        · obtain ⟨sv, h1, h2, h3, h4⟩ := fetch_some s.service (kind w) h.q A B r e hA hr
          rw [h1, Res.bind_ok]
          exact ⟨_, rfl, inv_take h w hw A B r e sv h2 h3⟩
  | turn w ok =>
    rw [show added [SEvent.turn w ok] = [] from rfl, List.append_nil]
    unfold Workers.step
    dsimp only
    unfold Workers.turn
    cases hw : s.hand w with
    | none => exact ⟨s, rfl, h⟩
    | some r =>
      have hkn := h.known r (.inr ⟨w, hw⟩)
      dsimp only
      cases ha : r.actions[r.current]? with
      | none =>
        refine ⟨_, rfl, ?_⟩
        rw [List.getElem?_eq_none_iff] at ha
        have hex : executed s r.tag = r.actions := by
          rw [hkn.2]; exact List.take_of_length_le ha
        exact inv_drop h w r hw s.log (fun _ _ => rfl) ⟨[], by rw [List.append_nil]; exact hex⟩
          (fun _ => hex) h.kinds
      | some a =>
        dsimp only
        obtain ⟨b, hb, hal⟩ := filter_ok r (kind w) a ha
        rw [hb, Res.bind_ok]
        cases b with
        | false =>
          obtain ⟨sv, h1, h2, h3⟩ := schedule_spec s.service r h.q (List.getElem?_eq_some_iff.1 ha).1
          simp only [Bool.not_false, if_true]
          rw [h1, Res.bind_ok]
          exact ⟨_, rfl, inv_back h w r hw sv h2 h3⟩
        | true =>
          simp only [Bool.not_true, Bool.false_eq_true, if_false]
          cases ok with
          | true => exact ⟨_, rfl, inv_exec h w r hw a ha (hal rfl)⟩
          | false =>
            refine ⟨_, rfl, ?_⟩
            refine inv_drop h w r hw (s.log ++ [(w, r.tag, a)]) ?_ ?_ ?_ ?_
            · intro i hi
              rw [executed_log, if_neg (fun e => hi e.symm), List.append_nil]
            · rw [executed_log, if_pos rfl, hkn.2]
              refine ⟨r.actions.drop (r.current + 1), ?_⟩
              have : r.actions.take r.current ++ [a] = r.actions.take (r.current + 1) := by
                rw [List.take_succ, ha]; rfl
              rw [this, List.take_append_drop]
            · intro hc; exact absurd rfl (hclean hc w)
            · intro e he
              rcases List.mem_append.1 he with he | he
              · exact h.kinds e he
              · rw [List.mem_singleton] at he
                rw [he]; exact hal rfl
  | shutdown =>
    rw [show added [SEvent.shutdown] = [] from rfl, List.append_nil]
    exact ⟨_, rfl, ⟨⟨h.q.cur, h.q.cnt, h.q.cntU⟩, h.nodup, h.apart, h.one, h.known, h.gone, h.unknown, h.kinds⟩⟩

theorem added_cons (e : SEvent) (es : List SEvent) : added (e :: es) = added [e] ++ added es := by
  cases e <;> rfl

theorem inv_run {clean kind} (es : List SEvent) : ∀ adds s, Inv clean kind adds s → Legal es →
    (clean = true → NoFailure es) →
    ∃ s', runFrom kind adds.length s es = .ok s' ∧ Inv clean kind (adds ++ added es) s' := by
  induction es with
  | nil => intro adds s h _ _; exact ⟨s, rfl, by simpa [added] using h⟩
  | cons e es ih =>
    intro adds s h hl hc
    have hl1 : ∀ id as, e = .add id as → as ≠ [] := by
      rintro id as rfl; exact hl as (by simp [added])
    have hl2 : Legal es := by
      intro as has; apply hl; rw [added_cons]; simp [has]
    obtain ⟨s1, h1, h2⟩ := inv_step h e hl1 (fun hcl => hc hcl e (by simp))
    obtain ⟨s2, h3, h4⟩ := ih (adds ++ added [e]) s1 h2 hl2 (fun hcl e' he' => hc hcl e' (by simp [he']))
    refine ⟨s2, ?_, ?_⟩
    · rw [runFrom, h1, Res.bind_ok, ← h3]
      cases e <;> simp [added, bump]
    · rw [added_cons, ← List.append_assoc]; exact h4

end Verif.C33
