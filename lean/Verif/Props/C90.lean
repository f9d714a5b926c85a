import Verif.Proofs.C90Few

/-! C90: a connection of a cloud serves one request at a time. -/

namespace Verif.C90
open Verif.Conn

/-- Whatever the threads do and whatever fails, no step is undefined; a handle belongs
to one request or to the cache, and is there as long as it does; when the cloud is
freed none is left. -/
theorem C90_full : Full := by
  intro s h
  have hi := inv_reach h
  refine ⟨?_, hi.one, hi.out, hi.all, hi.cached, hi.closed⟩
  intro ho e hc
  rcases inv_step hi ho e hc with h | ⟨s', h, _⟩
  · exact .inr h
  · exact .inl ⟨s', h⟩

/-- `n` threads never make more than `n` handles: the cache is asked first. -/
theorem C90_few (n : Nat) (s : St) (h : ReachBy n s) : s.live.length ≤ n := by
  obtain ⟨hi, hf⟩ := few_reach h
  have h1 := hf.live
  by_cases hc : s.closed = true
  · rw [hi.closed hc]; simp
  · have h2 := hf.room (by simpa using hc)
    have h3 : (List.range n).countP (fun a => holds (s.pc a)) ≤
        (List.range n).countP (fun a => under (s.pc a)) := by
      apply List.countP_mono_left
      intro a _ ha
      revert ha
      cases s.pc a <;> simp [holds, under]
    omega

/-- The handle of a request that failed does not go back to the cache: the only step of
this request frees it. -/
theorem C90_failed (s : St) (hr : Reach s) (ho : s.closed = false) (r h : Nat)
    (hp : s.pc r = .after h false) :
    (∃ m, step s (.give r) = .err m) ∧
    ∃ s', step s (.drop r) = .ok s' ∧ h ∉ s'.live ∧ h ∉ s'.list ∧ s'.pc r = .idle := by
  have hi := inv_reach hr
  have h0 : Has s r h := .inr (.inr ⟨false, hp⟩)
  refine ⟨⟨"not there", ?_⟩, ?_⟩
  · simp [step, ho, give, hp]
  · refine ⟨{ s with live := s.live.erase h }.at r .idle, ?_, ?_, (hi.out r h h0).2, ?_⟩
    · have := cleanup_ok hi h0 (by intro y; rw [hp]; nofun)
      simp [step, ho, drop, hp, this, Res.map, Res.bind]
    · show h ∉ s.live.erase h
      rw [hi.liveNodup.mem_erase_iff]
      exact fun h => h.1 rfl
    · rw [pc_at, if_pos rfl]

/-- Steps one after the other. -/
def runs : St → List Ev → Res St
  | s, [] => .ok s
  | s, e :: es => (step s e).bind fun s => runs s es

/-- Two requests at the same time, one of which fails; a third takes the handle of the
first; a fourth, at the same time, makes a new one, which may have the name of the
handle that was freed. -/
def trace : List Ev :=
  [.pop 0, .alloc 0 (some 7), .pop 1, .begin 0, .alloc 1 (some 8), .begin 1, .done 1 false,
   .done 0 true, .give 0, .drop 1, .pop 1, .pop 0, .alloc 0 (some 8), .begin 1, .begin 0]

theorem reach_runs : ∀ (es : List Ev) (s t : St), Reach s → s.closed = false →
    (∀ e ∈ es, e ≠ .close) → runs s es = .ok t → Reach t ∧ t.closed = false := by
  intro es
  induction es with
  | nil => intro s t h ho _ hr; injection hr with hr; subst hr; exact ⟨h, ho⟩
  | cons e es ih =>
    intro s t h ho hn hr
    obtain ⟨u, h1, h2⟩ := Res.bind_eq_ok.mp hr
    have hu : Reach u := .step s e u h ho (fun hc => absurd hc (hn e (by simp))) h1
    have hc : u.closed = false := by
      unfold step at h1
      rw [ho, if_neg (by simp)] at h1
      cases e with
      | pop r =>
        change pop r s = .ok u at h1
        unfold pop at h1
        split at h1
        · split at h1
          · split at h1
            · cases h1
            · injection h1 with h1; subst h1; exact ho
          · injection h1 with h1; subst h1; exact ho
        · cases h1
      | alloc r o =>
        change alloc r o s = .ok u at h1
        unfold alloc at h1
        split at h1
        · injection h1 with h1; subst h1; exact ho
        · split at h1
          · cases h1
          · injection h1 with h1; subst h1; exact ho
        · cases h1
      | begin r =>
        change start r s = .ok u at h1
        unfold start at h1
        split at h1
        · split at h1
          · cases h1
          · split at h1
            · injection h1 with h1; subst h1; exact ho
            · cases h1
        · cases h1
      | done r ok =>
        change done r ok s = .ok u at h1
        unfold done at h1
        split at h1
        · injection h1 with h1; subst h1; exact ho
        · cases h1
      | give r =>
        change give r s = .ok u at h1
        unfold give at h1
        split at h1
        · split at h1
          · cases h1
          · injection h1 with h1; subst h1; exact ho
        · cases h1
      | drop r =>
        change drop r s = .ok u at h1
        rcases drop_ok (inv_reach h) r with ⟨m, h'⟩ | ⟨x, _, _, h'⟩
        · rw [h1] at h'; cases h'
        · rw [h1] at h'; injection h' with h'; subst h'; exact ho
      | close => exact absurd rfl (hn .close (by simp))
    exact ih u t hu hc (fun e he => hn e (by simp [he])) h2

/-- This is a point that is reached: two handles at work. -/
example : ∃ s, Reach s ∧ s.closed = false ∧ s.pc 0 = .run 8 ∧ s.pc 1 = .run 7 ∧
    s.running = [8, 7] ∧ s.list = [] := by
  have hb : (match runs init trace with
      | .ok s => s.pc 0 == .run 8 && s.pc 1 == .run 7 && s.running == [8, 7] && s.list == []
      | _ => false) = true := by decide +kernel
  cases hr : runs init trace with
  | ok s =>
    rw [hr] at hb
    simp only [Bool.and_eq_true, beq_iff_eq] at hb
    obtain ⟨h1, h2⟩ := reach_runs trace init s .init rfl (by unfold trace; simp) hr
    exact ⟨s, h1, h2, hb.1.1.1, hb.1.1.2, hb.1.2, hb.2⟩
  | err m => rw [hr] at hb; cases hb
  | abort m => rw [hr] at hb; cases hb
  | ub m => rw [hr] at hb; cases hb

/-- A point where a request has failed. -/
example : ∃ s, Reach s ∧ s.closed = false ∧ s.pc 1 = .after 8 false := by
  have hb : (match runs init (trace.take 7) with
      | .ok s => s.pc 1 == .after 8 false
      | _ => false) = true := by decide +kernel
  cases hr : runs init (trace.take 7) with
  | ok s =>
    rw [hr] at hb
    obtain ⟨h1, h2⟩ := reach_runs _ init s .init rfl (by unfold trace; simp) hr
    exact ⟨s, h1, h2, by simpa using hb⟩
  | err m => rw [hr] at hb; cases hb
  | abort m => rw [hr] at hb; cases hb
  | ub m => rw [hr] at hb; cases hb

/-- With two threads. -/
example : ReachBy 2 (init.at 0 .empty) :=
  .step init (.pop 0) _ .init rfl nofun (by intro r h; injection h with h; omega) rfl

/-- Without the condition on freeing the cloud it would be false: a request that is
under way then uses the cloud after it was freed. -/
example : (match runs init [.pop 0, .alloc 0 (some 1), .begin 0, .close, .done 0 true] with
    | .ub _ => true | _ => false) = true := by decide +kernel

end Verif.C90
