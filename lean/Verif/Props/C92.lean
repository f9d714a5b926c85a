import Verif.Proofs.C92

/-! C92: calls of the library tell what happened, and handles last until they are
freed. -/
namespace Verif.C92
open Verif.Api

/-- Nothing undefined happens as long as the application uses only handles it holds and
frees the cursors of an environment before the environment, with any number of
environments and threads. -/
theorem C92_safe_partial : Safe Proper := by
  intro tr w h t c hc m
  rcases step_safe (history_inv h) (history_paired h) t c hc with ⟨r, h⟩ | h
  · rw [h]; exact ⟨nofun, nofun⟩
  · rw [h]; exact ⟨nofun, nofun⟩

/-- Handles are distinct, and their memory is freed, in whatever order that happens. -/
theorem C92_clean : Clean Holds := by
  intro tr w h
  have hi := history_inv h
  refine ⟨hi.nodup, fun h0 p => ?_⟩
  cases hm : w.memory p with
  | none => rfl
  | some c =>
    obtain ⟨k, hk⟩ := hi.known p c hm
    rw [h0] at hk; cases hk

/-- The answers are right if there was memory for the handle and no error was caught
inside.  Missing: the others, for which it fails. -/
theorem C92_tells_partial (tr mid : List Entry) (t : Nat) (c : Call) (ret : Ret) (w : World)
    (h : History Holds (mid ++ ⟨t, c, ret⟩ :: tr) w) (hs : Sane c) (he : c ≠ .error)
    (hq : ∀ e ∈ mid, e.thread = t → Asks e) (h1 : ¬ Starved c) (h2 : ¬ Inside c) :
    ∃ text, step w t .error = .ok (w, .text text) ∧ Right c ret text := by
  obtain ⟨w1, hw1, htext⟩ := text_kept tr _ t mid w h hq
  refine ⟨_, rfl, ?_⟩
  rw [htext]
  cases hw1 with
  | call _ w0 _ _ _ _ h0 hm hstep =>
  cases hb : body c with
  | none =>
    cases c <;> simp only [body] at hb <;> try cases hb
    · obtain ⟨h3, rfl⟩ := free_text hstep
      rw [h3]
      refine ⟨⟨nofun, ?_⟩, ?_, nofun, fun _ => rfl⟩
      · rintro (h | ⟨m, _, b, h, _⟩ | ⟨_, b, h, _⟩)
        · exact h
        · cases h
        · cases h
      · rintro m ⟨_, b, h, _⟩; cases h
    · exact absurd rfl he
  | some b =>
    obtain ⟨h3, h4, h5⟩ := step_text hstep h1 b hb
    obtain ⟨s1, s2, s3⟩ := hs b hb
    have hc : b.caught = [] := Classical.byContradiction fun e => h2 ⟨h1, b, hb, e⟩
    have hthrew : ∀ m, Threw c m ↔ b.out = .thrown m := by
      intro m
      constructor
      · rintro ⟨_, b', h, h'⟩
        rw [hb] at h; cases h; exact h'
      · exact fun h => ⟨h1, b, hb, h⟩
    rw [h3]
    cases ho : b.out with
    | done v =>
      have hv : value b = some v := by simp [value, ho]
      have ha : after [] b = [] := by simp [after, ho, hc, lastText]
      have hn : ¬ Says ret := by
        rcases h4 v hv with rfl | ⟨p, rfl⟩
        · intro e
          have := s1 v ho
          simp only [Says] at e; omega
        · exact nofun
      rw [ha]
      refine ⟨⟨fun e => absurd e hn, ?_⟩, ?_, fun e => absurd e hn, fun _ => rfl⟩
      · rintro (h | ⟨m, h⟩ | h)
        · exact absurd h h1
        · rw [hthrew, ho] at h; cases h
        · exact absurd h h2
      · intro m h
        rw [hthrew, ho] at h; cases h
    | thrown m =>
      have hv : value b = none := by simp [value, ho]
      have hy := h5 hv
      have ha : after [] b = m.take 255 := by simp [after, ho]
      rw [ha]
      refine ⟨⟨fun _ => .inr (.inl ⟨m, (hthrew m).2 ho⟩), fun _ => hy⟩, ?_, ?_, fun e => absurd hy e⟩
      · intro m' h
        rw [hthrew, ho] at h; cases h; rfl
      · intro _ e
        have := s2 m ho
        rcases List.take_eq_nil_iff.mp e with e | e
        · cases e
        · exact this e

/-- A call that threw says so and leaves its error whatever was caught inside before. -/
theorem C92_threw (tr : List Entry) (t : Nat) (c : Call) (ret : Ret) (w : World) (m : Bytes)
    (h : History Holds (⟨t, c, ret⟩ :: tr) w) (ht : Threw c m) :
    Says ret ∧ step w t .error = .ok (w, .text (m.take 255)) := by
  cases h with
  | call _ w0 _ _ _ _ h0 hm hstep =>
  obtain ⟨hs, b, hb, ho⟩ := ht
  obtain ⟨h3, _, h5⟩ := step_text hstep hs b hb
  refine ⟨h5 (by simp [value, ho]), ?_⟩
  show Res.ok (w, Ret.text (w.runtime t).text) = _
  rw [h3]; simp [after, ho]

/-- No memory for a cursor: NULL, and no reason. -/
theorem C92_no_cursor (tr : List Entry) (t h : Nat) (b : Body) (ret : Ret) (w : World)
    (hh : History Holds (⟨t, .cursor h none b, ret⟩ :: tr) w) :
    ret = .handle none ∧ step w t .error = .ok (w, .text []) := by
  cases hh with
  | call _ w0 _ _ _ _ h0 hm hstep =>
  obtain ⟨e, he, h⟩ := Res.bind_eq_ok.mp hstep
  cases h
  exact ⟨rfl, by simp [step, World.set, Runtime.init]⟩

/-- No memory for an environment: NULL, and the reason of an earlier call of the
thread. -/
theorem C92_no_environment (tr : List Entry) (t : Nat) (b : Body) (ret : Ret) (w : World)
    (hh : History Holds (⟨t, .init none b, ret⟩ :: tr) w) :
    ret = .handle none ∧ History Holds tr w := by
  cases hh with
  | call _ w0 _ _ _ _ h0 hm hstep => cases hstep; exact ⟨rfl, h0⟩

/-- The command SERVICE returns 0 when what it did failed; the text is the error. -/
theorem C92_service (tr : List Entry) (t h : Nat) (m : Bytes) (ret : Ret) (w : World)
    (hh : History Holds (⟨t, .execute h ⟨[m], .done 0⟩, ret⟩ :: tr) w) :
    ret = .rc 0 ∧ step w t .error = .ok (w, .text (m.take 255)) := by
  cases hh with
  | call _ w0 _ _ _ _ h0 hm hstep =>
  obtain ⟨e, he, h⟩ := Res.bind_eq_ok.mp hstep
  rw [guardedCall_ok] at h
  simp only [Res.ok.injEq, Prod.mk.injEq] at h
  obtain ⟨rfl, rfl⟩ := h
  exact ⟨rfl, by simp [step, World.set, after, lastText]⟩

/-- The calls of a program with two environments, a cursor and a failure; the last
call first. -/
def program : List Entry :=
  [⟨1, .write 40 ⟨[], .thrown [98, 97, 100]⟩, .rc (-1)⟩,
   ⟨0, .cursor 16 (some 64) ⟨[], .done 0⟩, .handle (some 64)⟩,
   ⟨1, .init (some 40) ⟨[], .done 0⟩, .handle (some 40)⟩,
   ⟨0, .open_ 16 ⟨[], .done 0⟩, .rc 0⟩,
   ⟨0, .init (some 16) ⟨[], .done 0⟩, .handle (some 16)⟩]

def w1 : World := { start.put 16 (some ⟨OBJ, 0, 0⟩) with births := 1 }.set 0 ⟨[], [], some 16⟩
def w2 : World := w1.set 0 ⟨[], [], some 16⟩
def w3 : World := { w2.put 40 (some ⟨OBJ, 0, 1⟩) with births := 2 }.set 1 ⟨[], [], some 40⟩
def w4 : World := (w3.put 64 (some ⟨OBJ_CURSOR, 16, 0⟩)).set 0 ⟨[], [], some 16⟩
def w5 : World := w4.set 1 ⟨[98, 97, 100], [], some 40⟩

theorem program_runs : History Proper program w5 := by
  refine .call _ w4 _ _ _ _ (.call _ w3 _ _ _ _ (.call _ w2 _ _ _ _ (.call _ w1 _ _ _ _
    (.call _ start _ _ _ _ .start ?_ rfl) ?_ rfl) ?_ rfl) ?_ rfl) ?_ rfl <;>
    simp [Proper, Holds, InOrder, held]

/-- A case that meets the hypotheses: the thread 1 is told why its write failed, after
calls of the thread 0. -/
example : ∃ w, History Holds ([⟨0, .read 64 ⟨[], .done 1⟩, .rc 1⟩] ++ program) w ∧
    Sane (.write 40 ⟨[], .thrown [98, 97, 100]⟩) ∧ ¬ Starved (.write 40 ⟨[], .thrown [98, 97, 100]⟩) ∧
    ¬ Inside (.write 40 ⟨[], .thrown [98, 97, 100]⟩) ∧
    Threw (.write 40 ⟨[], .thrown [98, 97, 100]⟩) [98, 97, 100] ∧
    step w 1 .error = .ok (w, .text [98, 97, 100]) := by
  refine ⟨w5.set 0 ⟨[], [], some 16⟩, ?_, ?_, nofun, ?_, ⟨nofun, _, rfl, rfl⟩, rfl⟩
  · refine .call _ w5 _ _ _ _ ?_ ⟨16, by simp [held, program]⟩ rfl
    refine .call _ w4 _ _ _ _ (.call _ w3 _ _ _ _ (.call _ w2 _ _ _ _ (.call _ w1 _ _ _ _
      (.call _ start _ _ _ _ .start ?_ rfl) ?_ rfl) ?_ rfl) ?_ rfl) ?_ rfl <;>
      simp [Holds, held]
  · intro b hb
    cases hb
    exact ⟨fun v h => (by cases h), fun m h => (by cases h; simp), fun m h => (by cases h)⟩
  · rintro ⟨_, b, hb, h⟩
    cases hb; exact h rfl

/-- What the application may call next, here the cursor and then its environment. -/
example : Proper program (.free 64) ∧ ¬ Proper program (.free 16) := by
  constructor
  · exact ⟨⟨some 16, by simp [held, program]⟩, by simp [InOrder, held, program]⟩
  · intro h
    exact h.2 64 (by simp [held, program])

/-- The calls of the theorems about failures can happen. -/
example : (∃ w, History Holds [⟨0, .init none ⟨[], .done 0⟩, .handle none⟩] w) ∧
    (∃ w, History Holds (⟨1, .cursor 40 none ⟨[], .done 0⟩, .handle none⟩ :: program) w) ∧
    ∃ w, History Holds (⟨1, .execute 40 ⟨[[98]], .done 0⟩, .rc 0⟩ :: program) w := by
  have hp : History Holds program w5 := by
    refine .call _ w4 _ _ _ _ (.call _ w3 _ _ _ _ (.call _ w2 _ _ _ _ (.call _ w1 _ _ _ _
      (.call _ start _ _ _ _ .start ?_ rfl) ?_ rfl) ?_ rfl) ?_ rfl) ?_ rfl <;>
      simp [Holds, held]
  refine ⟨⟨_, .call _ start _ _ _ _ .start trivial rfl⟩, ⟨_, .call _ w5 _ _ _ _ hp ?_ rfl⟩,
    ⟨_, .call _ w5 _ _ _ _ hp ?_ rfl⟩⟩ <;> simp [Holds, held, program]

/-- An environment is freed while a cursor is open: to free the cursor is undefined. -/
theorem C92_order : ¬ Safe Holds := by
  intro h
  have hh : History Holds (⟨0, .free 16, .nothing⟩ :: program) ((w5.set 0 ⟨[], [], some 16⟩).put 16 none) := by
    refine .call _ w5 _ _ _ _ ?_ ⟨none, by simp [held, program]⟩ rfl
    refine .call _ w4 _ _ _ _ (.call _ w3 _ _ _ _ (.call _ w2 _ _ _ _ (.call _ w1 _ _ _ _
      (.call _ start _ _ _ _ .start ?_ rfl) ?_ rfl) ?_ rfl) ?_ rfl) ?_ rfl <;>
      simp [Holds, held]
  exact (h _ _ hh 0 (.free 64) ⟨some 16, by simp [held, program]⟩
    "memory that is not allocated").1 rfl

/-- A handle that is freed twice is not told by its type: the memory is not allocated,
or it is a handle of somebody else, which is then freed. -/
theorem C92_twice (t p : Nat) (w : World) :
    (w.memory p = none → ∃ m, step w t (.free p) = .ub m) ∧
    (∀ tr, History Holds tr w → ∀ m, step w t (.free p) ≠ .abort m) := by
  constructor
  · intro h
    exact ⟨"memory that is not allocated", by simp only [step, h]⟩
  · intro tr hh m h
    have hi := history_inv hh
    simp only [step] at h
    cases hm : w.memory p with
    | none => rw [hm] at h; cases h
    | some c =>
      rw [hm] at h; simp only at h
      have : c.type = OBJ ∨ c.type = OBJ_CURSOR := by
        obtain ⟨k, hk⟩ := hi.known p c hm
        cases k with
        | none => obtain ⟨c', h1, h2⟩ := hi.env p hk; rw [hm] at h1; cases h1; exact .inl h2
        | some e => obtain ⟨c', h1, h2, _⟩ := hi.cursor p e hk; rw [hm] at h1; cases h1; exact .inr h2
      by_cases h1 : c.type = OBJ
      · rw [if_pos h1] at h; cases h
      · rw [if_neg h1, if_pos (this.resolve_left h1)] at h
        cases hc : w.cursor p with
        | ok k => rw [hc] at h; cases h
        | err m => rw [hc] at h; cases h
        | ub m => rw [hc] at h; cases h
        | abort m' =>
          unfold World.cursor at hc
          rw [hm] at hc; simp only [if_pos (this.resolve_left h1)] at hc
          unfold World.env at hc
          cases he : w.memory c.env with
          | none => rw [he] at hc; cases hc
          | some e =>
            rw [he] at hc; simp only at hc
            by_cases h2 : e.type = OBJ
            · rw [if_pos h2, Res.bind_ok] at hc
              by_cases h3 : e.born = c.born
              · rw [if_pos h3] at hc; cases hc
              · rw [if_neg h3] at hc; cases hc
            · rw [if_neg h2] at hc; cases hc

/-- A failure without a reason. -/
theorem C92_tells_false : ¬ Tells Holds := by
  intro h
  have hh : History Holds [⟨0, .init none ⟨[], .done 0⟩, .handle none⟩] start :=
    .call _ start _ _ _ _ .start trivial rfl
  obtain ⟨text, h1, h2⟩ := h [] [] 0 _ _ _ hh
    (fun b hb => by cases hb; exact ⟨fun v h => (by cases h; decide), nofun, nofun⟩) nofun nofun
  cases h1
  exact h2.some_reason rfl rfl

theorem C92_false : ¬ Full := fun h => C92_order h.1

end Verif.C92
