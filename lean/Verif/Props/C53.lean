import Verif.Proofs.C53

/-! C53: memory safety of the tokenizer. -/
namespace Verif.C53
open Lex

/-- Partial: a text of any length is read safely by every parser if nowhere four
integers follow each other and bytes of 128 or more lie only in strings and
comments.  Missing: the other texts, where it is false (below). -/
theorem C53_tokens_safe_partial (text : List Nat) (h : Calm text) (ops : List Op) :
    Safe (run (start text) ops) := (run_post ops (start text) (inv_start h)).1

/-- The array of pushed tokens is never left either. -/
theorem C53_backlog_partial (text : List Nat) (h : Calm text) (ops : List Op) (l : Lex)
    (hl : run (start text) ops = .ok l) : l.backlog.length ≤ 4 :=
  ((run_post ops (start text) (inv_start h)).2 l hl).2

/-- Five integers in a row: reading the first overflows the four pushed tokens. -/
theorem C53_five_integers :
    Lex.next (start (bytes "1 2 3 4 5")) = .abort "lex_push: backlog_size < 4" := by decide +kernel

/-- Four integers in a row where the parser looks for something else. -/
theorem C53_four_integers (p : Token → Bool) (hp : p (.int 1) = false) :
    Lex.lexIf p (start (bytes "1 2 3 4")) = .abort "lex_push: backlog_size < 4" := by
  have h : Lex.next (start (bytes "1 2 3 4")) =
      .ok (.int 1, ⟨[], true, [.int 2, .int 3, .int 4, .eof]⟩) := by decide +kernel
  rw [Lex.lexIf, h, Res.bind_ok]
  dsimp only
  rw [hp]
  rfl

/-- A byte of 128 or more outside a string. -/
theorem C53_negative_char (rest : List Nat) :
    Lex.next (start (195 :: rest)) = .ub "isspace of a negative char" := rfl

theorem C53_tokens_false : ¬ Full := by
  intro h
  have := (h (bytes "1 2 3 4 5") (by decide +kernel) [.next]).1 "lex_push: backlog_size < 4"
  apply this
  rw [run, step, C53_five_integers]
  rfl

/-- The hypotheses are met by a real command with many numbers, and by one with
bytes of 128 or more in a string and a comment. -/
example : Calm (bytes "alter pipeline set hot (capacity 1, size 2 mib, events 3, duration 4 days, duration_on_drop 5), c2 (events 10 20 30) # 1 2 3 4 5") ∧
    Calm (bytes "create storage a (path '1 2 3 " ++ [195, 164] ++ bytes "4 5') # " ++ [195, 164]) ∧
    ¬ Calm (bytes "show partition 1 2 # and\n3 4") ∧ ¬ Calm [195, 164] := by decide +kernel

end Verif.C53
