import Verif.Proofs.C65

namespace Verif.C65
open Data Decode Log

/-- Partial: a message that fits in the buffer with what is put around it (993
bytes for errors) is logged in one line as it is, and reported.  Missing from
the full property: longer messages (false, below). -/
theorem C65_partial (e : Error) (l : Logger) (stack date : Bytes) (usec : Nat) (pfx msg : Bytes)
    (g : Given stack date usec pfx) (hs : Short pfx msg) :
    Logged l stack date usec pfx msg ∧
    (e.text.length = 256 → (0 ∉ msg) → pfx = cstr "error: " → Reported e l stack date usec msg) := by
  have h := logged_short (l := l) g hs
  refine ⟨⟨_, msg, millis_stamp g.usec, List.prefix_refl _, fun _ => rfl, h⟩, ?_⟩
  rintro he h0 rfl
  obtain ⟨t, h1, h2⟩ := text_short he h0
  exact ⟨_, ⟨t, msg.length⟩, by unfold error_throw_as; rw [h, Res.bind_ok, h1, Res.bind_ok], h2 _⟩

/-- Without a log every message is reported. -/
theorem C65_reported_partial (e : Error) (l : Logger) (stack date : Bytes) (usec : Nat) (msg : Bytes) (hl : l.enable = false)
    (he : e.text.length = 256) (h0 : 0 ∉ msg) : Reported e l stack date usec msg := by
  obtain ⟨t, h1, h2⟩ := text_short he h0
  refine ⟨[], ⟨t, msg.length⟩, ?_, h2 _⟩
  unfold error_throw_as logger_write
  simp only [hl, Bool.not_false, if_true, Res.bind_ok, h1]

/-- Every longer message (by more than one byte) makes the logger store past the
end of its buffer on the stack. -/
theorem C65_overflow (l : Logger) (stack date : Bytes) (usec : Nat) (pfx msg : Bytes) (g : Given stack date usec pfx)
    (he : l.enable = true) (hs : 1024 < 18 + 4 + pfx.length + msg.length) (hm : msg.length < 2147483648) :
    logger_write l stack date usec (some pfx) msg = .ub "write past the end of the buffer" :=
  logged_long g he hs hm

/-- In particular SHOW with an unknown name of 973 bytes or more. -/
theorem C65_show (e : Error) (l : Logger) (stack date : Bytes) (usec : Nat) (name : Bytes)
    (g : Given stack date usec (cstr "error: ")) (he : l.enable = true) (hn : 973 ≤ name.length) (hm : name.length < 2000000000) :
    error_throw_as e l stack date usec (show_not_found name) = .ub "write past the end of the buffer" := by
  have h1 : (cstr "error: ").length = 7 := by decide +kernel
  have h2 : (cstr "SHOW name: '").length = 12 := by decide +kernel
  have h3 : (cstr "' not found").length = 11 := by decide +kernel
  have h4 : (show_not_found name).length = 23 + name.length := by
    simp only [show_not_found, List.length_append, h2, h3]; omega
  unfold error_throw_as
  rw [logged_long g he (by omega) (by omega)]
  rfl

/-- C65 is false of the code. -/
theorem C65_false : ¬ Full := by
  intro h
  have g : Given (List.replicate 1024 0) (List.replicate 18 48) 0 (cstr "error: ") :=
    ⟨List.length_replicate .., List.length_replicate .., by omega, .inr rfl⟩
  obtain ⟨out, e', h1, _⟩ := h.2 ⟨List.replicate 256 0, 0⟩ logger_init (List.replicate 1024 0) (List.replicate 18 48) 0
    (show_not_found (List.replicate 1000 97)) (List.length_replicate ..) (by decide +kernel) g
  rw [C65_show _ _ _ _ _ _ g rfl (by rw [List.length_replicate]; omega) (by rw [List.length_replicate]; omega)] at h1
  cases h1

/-- The command is one that is accepted. -/
example : Parse.parse ⟨1000, [], 0, ⟨1, 2⟩, []⟩ (Lex.bytes "show " ++ List.replicate 1000 97) =
    .ok (.show [⟨.name, .name (List.replicate 1000 97), false⟩]) := by decide +kernel

/-- A line. -/
example : logger_write { logger_init with fd := true } (List.replicate 1024 7) (cstr "16.11.26 21:35:18.") 45678
    (some (cstr "error: ")) (cstr "oops") =
    .ok [.file (cstr "16.11.26 21:35:18.045 error: oops\n"), .stdout (cstr "16.11.26 21:35:18.045 error: oops\n")] := by
  decide +kernel

/-- The hypotheses are met. -/
example : Given (List.replicate 1024 7) (cstr "16.11.26 21:35:18.") 45678 (cstr "error: ") ∧
    Short (cstr "error: ") (show_not_found (cstr "x")) :=
  ⟨⟨List.length_replicate .., by decide +kernel, by decide, .inr rfl⟩, by unfold Short; decide +kernel⟩

/-- A message of one byte more than fits: the line ends with a zero. -/
example : logger_write logger_init (List.replicate 1024 7) (cstr "16.11.26 21:35:18.") 45678 (some []) (List.replicate 1001 97) =
    .ok [.stdout (cstr "16.11.26 21:35:18.045 " ++ List.replicate 1001 97 ++ [0])] := by decide +kernel

/-- The text that DEBUG 'wal_read' prints for a record is far below the limit of
buf_vprintf. -/
theorem C65_printf (stack msg : Bytes) (hs : stack.length = 1024) (hm : msg.length < 1024) : buf_vprintf stack msg = .ok msg := by
  obtain ⟨b, h1, h2, h3⟩ := snprintf_fits (pos := 0) (s := msg) hs (by omega)
  rw [left_small (by omega)] at h1
  unfold buf_vprintf load
  rw [show (1024 : Nat) = 1024 - 0 from rfl, h1, Res.bind_ok]
  dsimp only
  rw [if_pos (by omega)]
  simpa using h3

example : buf_vprintf (List.replicate 1024 7) (cstr "[18446744073709551615, -2147483648, -2147483648, -2147483648]\n") =
    .ok (cstr "[18446744073709551615, -2147483648, -2147483648, -2147483648]\n") := by decide +kernel

end Verif.C65
