import Verif.Proofs.C76

/-! C76: the memory of a command is given back, once, however the command ends. -/
namespace Verif.C76
open CmdMem Lex Parse

def env0 : Env := ⟨100, [], 0, ⟨1, 2⟩, List.replicate 32 65⟩

/-- Other memory that is live before. -/
def mem0 : Mem := ⟨[(0, .chars), (1, .config [some 0])], 2, fun _ => false⟩

/-- The same, but allocation number 6 fails. -/
def mem6 : Mem := { mem0 with fails := fun n => n == 6 }

/-- The keys of what is live at the end. -/
def left_ : Ended → Option (List Ptr)
  | .done _ _ m => some (m.live.map (·.1))
  | .refused _ m => some (m.live.map (·.1))
  | _ => none

/-- An error, and what is live after it. -/
def refusal : Ended → Option (String × Blocks)
  | .refused e m => some (e, m.live)
  | _ => none

theorem wf0 : WellFormed mem0 := by
  refine ⟨by decide, ?_⟩
  intro x hx
  simp only [mem0, List.mem_cons, List.not_mem_nil, or_false] at hx
  rcases hx with rfl | rfl <;> decide

/-- Whatever allocation fails, whatever the execution does: after a text without
four integers in a row (`C53.Calm`), with closed strings and characters the
tokenizer knows (`Tidy`) and without empty strings, the memory is as before, but for
the result.  Missing: the other texts, of which the two theorems below show that
the memory is not given back. -/
theorem C76_balanced_partial (env : Env) (text : List Nat) (exec : Exec) (want : Bool) (m : Mem)
    (hc : C53.Calm text) (ht : Tidy text) (hn : NoEmpty text) (hm : WellFormed m) :
    Balanced m.live (main_execute env text exec want m) := by
  have h0 : Holds m m.live := ⟨List.Perm.refl _, hm.1, hm.2⟩
  have hp := parse_mem env hc ht hn h0
  unfold main_execute
  rcases hp with ⟨_, e, m', e1, h1⟩ | hp
  · rw [e1]; exact h1.perm
  · cases he : Parse.parse env text with
    | ok cmd =>
      rw [he] at hp
      obtain ⟨k, s, e1, hq⟩ := hp
      rw [e1]
      cases k with
      | none => exact Holds.perm hq.2.2.2
      | some k =>
        obtain ⟨sh, h2⟩ := hq.2.2.2
        exact (finish_ok exec want cmd k h2).1
    | err e =>
      rw [he] at hp
      obtain ⟨m', e1, h1⟩ := hp
      rw [e1]; exact h1.perm
    | abort w => rw [he] at hp; exact hp.elim
    | ub w => rw [he] at hp; exact hp.elim

/-- If no allocation fails, the command that is executed or the refusal is that of
the parser without memory (C58). -/
theorem C76_same_partial (env : Env) (text : List Nat) (exec : Exec) (want : Bool) (m : Mem)
    (hc : C53.Calm text) (ht : Tidy text) (hn : NoEmpty text) (hm : WellFormed m) (hf : ∀ n, m.fails n = false) :
    match Parse.parse env text with
    | .ok cmd => exec.throws = false → ∃ r m', main_execute env text exec want m = .done cmd r m' ∧
        (r.isSome → want = true ∧ exec.output = true)
    | .err e => ∃ m', main_execute env text exec want m = .refused e m'
    | .abort _ => False
    | .ub _ => False := by
  have h0 : Holds m m.live := ⟨List.Perm.refl _, hm.1, hm.2⟩
  have hp := parse_mem env hc ht hn h0
  unfold main_execute
  rcases hp with ⟨⟨n, hn⟩, _⟩ | hp
  · rw [hf n] at hn; cases hn
  · cases he : Parse.parse env text with
    | ok cmd =>
      rw [he] at hp
      obtain ⟨k, s, e1, hq⟩ := hp
      dsimp only
      intro ht
      rw [e1]
      cases k with
      | none => exact ⟨none, _, rfl, by simp⟩
      | some k =>
        obtain ⟨sh, h2⟩ := hq.2.2.2
        obtain ⟨r, m', e2, h3⟩ := (finish_ok exec want cmd k h2).2 (by rw [hq.2.2.1]; exact hf) ht
        refine ⟨r, m', e2, fun hr => ?_⟩
        rw [h3, Bool.and_eq_true] at hr
        exact hr
    | err e =>
      rw [he] at hp
      obtain ⟨m', e1, h1⟩ := hp
      rw [e1]; exact ⟨m', rfl⟩
    | abort w => rw [he] at hp; exact hp.elim
    | ub w => rw [he] at hp; exact hp.elim

/-- A text that is refused before its command is complete leaves the memory as it
was, also when a string of it is not closed. -/
theorem C76_refused_partial (env : Env) (text : List Nat) (exec : Exec) (want : Bool) (m : Mem) (e : String)
    (hn : NoEmpty text) (hm : WellFormed m)
    (he : ((Prog.next .ret).bind (Parse.command env (text.length + 1))).run (Lex.start text) = .err e) :
    ∃ e m', main_execute env text exec want m = .refused e m' ∧ m'.live.Perm m.live := by
  have h0 : Holds m m.live := ⟨List.Perm.refl _, hm.1, hm.2⟩
  obtain ⟨e, m', e1, h1⟩ := upto_mem env hn h0 he
  exact ⟨e, m', by rw [main_execute, e1], h1.perm⟩

/-- A cloud is created, and the result handed over. -/
def t1 : List Nat := bytes "create cloud c (url 'x', login 'a', url 'y')"
example : C53.Calm t1 ∧ Tidy t1 ∧ NoEmpty t1 ∧ WellFormed mem0 := ⟨by decide +kernel, by decide +kernel, by decide +kernel, wf0⟩
example : left_ (main_execute env0 t1 ⟨true, false⟩ true mem0) = some [8, 0, 1] := by decide +kernel
example : left_ (main_execute env0 t1 ⟨true, true⟩ true mem0) = some [0, 1] := by decide +kernel
example : left_ (main_execute env0 t1 ⟨true, false⟩ true mem6) = some [0, 1] := by decide +kernel

/-- Tiers, with an error in the second. -/
def t2 : List Nat := bytes "alter pipeline set a (size 1 kb), b (what 2)"
example : C53.Calm t2 ∧ Tidy t2 ∧ NoEmpty t2 := ⟨by decide +kernel, by decide +kernel, by decide +kernel⟩
example : left_ (main_execute env0 t2 ⟨false, false⟩ false mem0) = some [0, 1] := by decide +kernel

/-- A string that is not closed, inside the command. -/
def t3 : List Nat := bytes "create storage s (path 'x"
example : ((Prog.next .ret).bind (Parse.command env0 (t3.length + 1))).run (Lex.start t3) = .err "unterminated string" := by
  decide +kernel
example : NoEmpty t3 := by decide +kernel

/-- False: the command is not under a guard while the end of the text is looked for,
so a text that goes wrong there (parse.c:174) leaves the command behind. -/
theorem C76_end_false : refusal (main_execute env0 (bytes "checkpoint 'a") ⟨false, false⟩ false mem0) =
    some ("unterminated string", (2, .cmd .null none []) :: mem0.live) := by decide +kernel

/-- False: the key that is made for a storage takes the place of an empty one, which
is not freed (parse_storage.c:212). -/
theorem C76_key_false :
    left_ (main_execute env0 (bytes "create storage a (encryption 'aes', encryption_key '')") ⟨false, false⟩ false mem0) =
      some [6, 0, 1] := by decide +kernel

theorem refusal_balanced {l : Blocks} {r : Ended} {x : String × Blocks} (h : Balanced l r) (e : refusal r = some x) :
    x.2.Perm l := by
  cases r with
  | refused w m => cases e; exact h
  | done cmd r m => cases e
  | abort w => cases e
  | ub w => cases e

attribute [local irreducible] main_execute

theorem C76_false : ¬ Full := by
  intro h
  have h1 : ∀ c ∈ bytes "checkpoint 'a", c < 256 := by decide +kernel
  have h2 := h env0 _ ⟨false, false⟩ false mem0 h1 wf0
  have h3 := List.Perm.length_eq (refusal_balanced h2 C76_end_false)
  exact absurd h3 (by decide)

end Verif.C76
