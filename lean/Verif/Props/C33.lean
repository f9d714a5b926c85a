import Verif.Proofs.C33

/-! C33: background requests. -/
namespace Verif.C33

theorem once_of_inv {clean kind es s} (h : Inv clean kind (added es) s) :
    (∀ i as, (added es)[i]? = some as → executed s i <+: as) := by
  intro i as hi
  by_cases hp : Pending s i
  · rw [pending_iff] at hp
    obtain ⟨r, hr, rfl⟩ := hp
    obtain ⟨h1, h2⟩ := h.known r hr
    rw [h1] at hi
    cases hi
    rw [h2]
    exact List.take_prefix _ _
  · exact (h.gone i as hi hp).1

/-- Partial: for every number and kind of workers, every history of scheduling,
fetching, executing and shutting down in which no action throws.  Missing:
failing actions, for which the claim is false (below). -/
theorem C33_requests_partial (kind : Nat → Filter) (es : List SEvent) (hl : Legal es) (hf : NoFailure es) :
    ∃ s, run kind es = .ok s ∧ Good kind es s := by
  obtain ⟨s, h1, h2⟩ := inv_run (clean := true) (kind := kind) es [] Workers.init (inv_init _ _) hl (fun _ => hf)
  rw [List.nil_append] at h2
  refine ⟨s, h1, ⟨once_of_inv h2, h2.unknown, fun i as hi hp => (h2.gone i as hi hp).2 rfl, h2.kinds, h2.q.cnt, h2.q.cntU⟩⟩

/-- With failing actions: still no memory error, counters exact, nothing executed
twice, out of order, or by the wrong kind of worker. -/
theorem C33_at_most_once (kind : Nat → Filter) (es : List SEvent) (hl : Legal es) :
    ∃ s, run kind es = .ok s ∧
      (∀ i as, (added es)[i]? = some as → executed s i <+: as) ∧
      (∀ i, (added es)[i]? = none → executed s i = []) ∧
      (∀ e ∈ s.log, Allowed (kind e.1) e.2.2) ∧
      s.service.count = s.service.list.length ∧
      s.service.countUpload =
        (s.service.list.filter (fun r => r.actions[r.current]? == some .upload)).length := by
  obtain ⟨s, h1, h2⟩ := inv_run (clean := false) (kind := kind) es [] Workers.init (inv_init _ _) hl (by simp)
  rw [List.nil_append] at h2
  exact ⟨s, h1, once_of_inv h2, h2.unknown, h2.kinds, h2.q.cnt, h2.q.cntU⟩

/-- No request is starved by the bookkeeping: in every reachable state, before
shutdown, an idle worker gets the first queued request of its kind, and waits
only if there is none. -/
theorem C33_fetch_first (kind : Nat → Filter) (es : List SEvent) (hl : Legal es) (s : Workers)
    (hs : run kind es = .ok s) (hd : s.service.shutdown = false) (f : Filter) :
    ∃ sv, s.service.next f =
      .ok ((match s.service.list.find? (accepts f) with | some r => .got r | none => .wait), sv) ∧
      (∀ r, s.service.list.find? (accepts f) = some r →
        ∃ A B, s.service.list = A ++ r :: B ∧ sv.list = A ++ B) ∧
      (s.service.list.find? (accepts f) = none → sv = s.service) := by
  obtain ⟨s', h1, h2⟩ := inv_run (clean := false) (kind := kind) es [] Workers.init (inv_init _ _) hl (by simp)
  have : s' = s := by
    have h3 : run kind es = .ok s' := h1
    rw [hs] at h3; exact (Res.ok.inj h3).symm
  subst this
  unfold Service.next
  rw [hd]
  simp only [Bool.false_eq_true, if_false]
  rcases split_first (accepts f) s'.service.list with hn | ⟨A, r, B, e, hA, hr⟩
  · have hnone : s'.service.list.find? (accepts f) = none := by
      rw [List.find?_eq_none]; intro x hx; simp [hn x hx]
    rw [fetch_none s'.service f h2.q hn, Res.bind_ok, hnone]
    exact ⟨s'.service, rfl, by simp, fun _ => rfl⟩
  · obtain ⟨sv, g1, g2, g3, g4⟩ := fetch_some s'.service f h2.q A B r e hA hr
    have hsome : s'.service.list.find? (accepts f) = some r := by
      rw [e, List.find?_append, List.find?_eq_none.2 (fun x hx => by simp [hA x hx]), Option.none_or,
        List.find?_cons_of_pos hr]
    rw [g1, Res.bind_ok, hsome]
    exact ⟨sv, rfl, fun x hx => by cases hx; exact ⟨A, B, e, g2⟩, by simp⟩

/-- A refresh request whose rebalance step fails is dropped: the refresh itself
is never executed, and nothing is pending any more. -/
def failedRebalance : List SEvent :=
  [.add 7 [.rebalance, .refresh, .gc], .take 0, .turn 0 false]

theorem C33_lost_after_failure :
    ∃ s, run (fun _ => .any) failedRebalance = .ok s ∧ executed s 0 = [.rebalance] ∧ ¬ Pending s 0 := by
  refine ⟨_, rfl, rfl, ?_⟩
  rintro (⟨r, hr, _⟩ | ⟨w, r, hr, _⟩)
  · simp [Workers.init, Service.init] at hr
  · simp only [Workers.setHand, Workers.init] at hr
    split at hr <;> simp at hr

theorem C33_requests_false : ¬ Full := by
  intro h
  obtain ⟨s, h1, h2⟩ := h (fun _ => .any) failedRebalance (by intro as has; simp [failedRebalance, added] at has; simp [has])
  obtain ⟨s', g1, g2, g3⟩ := C33_lost_after_failure
  rw [h1] at g1
  cases Res.ok.inj g1
  have := h2.complete 0 [.rebalance, .refresh, .gc] rfl g3
  rw [g2] at this
  simp at this

/-- A history that meets the hypotheses: a cloud refresh is started by one kind of
worker and its upload is done by another. -/
def sample : List SEvent :=
  [.add 7 [.rebalance, .upload, .gc], .add 9 [.upload], .take 0, .turn 0 true, .turn 0 true,
   .take 1, .turn 1 true, .turn 1 true, .take 1, .turn 1 true, .turn 1 true, .take 0, .turn 0 true]

def sampleKind (w : Nat) : Filter := if w = 0 then .withoutUpload else .upload

example : Legal sample ∧ NoFailure sample := by
  constructor
  · intro as has; simp [sample, added] at has; rcases has with h | h <;> simp [h]
  · intro e he w; simp only [sample, List.mem_cons, List.not_mem_nil, or_false] at he
    rintro rfl; simp at he
example : (run sampleKind sample).bind (fun s => .ok s.log) =
    .ok [(0, 0, .rebalance), (1, 1, .upload), (1, 0, .upload), (0, 0, .gc)] := by decide

end Verif.C33
