import Verif.Spec.C65

/-! Formatted output (used by C65). -/
namespace Verif.C65
open Data Decode Log

theorem left_small {n : Nat} (h : n ≤ 1024) : left n = 1024 - n := by
  unfold left wrapU64; omega

/-- A text that fits. -/
theorem snprintf_fits {buf : Bytes} {pos : Nat} {s : Bytes} (hb : buf.length = 1024) (h : pos + s.length + 1 ≤ 1024) :
    ∃ buf', snprintf buf pos (left pos) s = .ok (buf', s.length) ∧ buf'.length = 1024 ∧
      buf'.take (pos + s.length) = buf.take pos ++ s := by
  unfold snprintf store
  rw [left_small (by omega), if_neg (by omega), List.take_of_length_le (by omega), if_pos (by simp; omega), Res.bind_ok]
  refine ⟨_, rfl, by simp; omega, ?_⟩
  have e : buf.take pos ++ (s ++ [0]) ++ buf.drop (pos + (s ++ [0]).length) =
      (buf.take pos ++ s) ++ ([0] ++ buf.drop (pos + (s ++ [0]).length)) := by simp
  rw [e, List.take_append_of_le_length (by simp; omega), List.take_of_length_le (by simp; omega)]

theorem strftime_fits {buf : Bytes} {s : Bytes} (hb : buf.length = 1024) (h : s.length + 1 ≤ 1024) :
    ∃ buf', strftime buf 0 (left 0) s = .ok (buf', s.length) ∧ buf'.length = 1024 ∧ buf'.take s.length = s := by
  unfold strftime store
  rw [left_small (by omega), if_pos (by omega), if_pos (by simp; omega), Res.bind_ok]
  refine ⟨_, rfl, by simp; omega, ?_⟩
  simp

theorem millis_length (usec : Nat) : (millis usec).length = 4 := rfl

theorem millis_stamp {usec : Nat} (h : usec < 1000000) : Stamp usec (millis usec) :=
  ⟨usec / 1000 / 100 % 10, usec / 1000 / 10 % 10, usec / 1000 % 10, by omega, by omega, by omega, by omega, rfl⟩

theorem pfx_length {pfx : Bytes} (h : pfx = [] ∨ pfx = cstr "error: ") : pfx.length ≤ 7 := by
  rcases h with rfl | rfl
  · simp
  · exact Nat.le_of_eq (by decide +kernel)

/-- What comes before the message fits. -/
theorem head_fits {stack date : Bytes} {usec : Nat} {pfx : Bytes} (g : Given stack date usec pfx) :
    ∃ b1 b2 b3, strftime stack 0 (left 0) date = .ok (b1, 18) ∧ snprintf b1 18 (left 18) (millis usec) = .ok (b2, 4) ∧
      snprintf b2 22 (left 22) pfx = .ok (b3, pfx.length) ∧ b3.length = 1024 ∧
      b3.take (22 + pfx.length) = date ++ millis usec ++ pfx := by
  have hp := pfx_length g.pfx
  obtain ⟨b1, h1, l1, t1⟩ := strftime_fits (s := date) g.stack (by rw [g.date]; omega)
  obtain ⟨b2, h2, l2, t2⟩ := snprintf_fits (pos := 18) (s := millis usec) l1 (by rw [millis_length]; omega)
  obtain ⟨b3, h3, l3, t3⟩ := snprintf_fits (pos := 22) (s := pfx) l2 (by omega)
  rw [g.date] at h1 t1
  rw [millis_length] at h2 t2
  rw [t1] at t2
  rw [t2] at t3
  exact ⟨b1, b2, b3, h1, h2, h3, l3, t3⟩

theorem logged_short {l : Logger} {stack date : Bytes} {usec : Nat} {pfx msg : Bytes} (g : Given stack date usec pfx)
    (hs : Short pfx msg) :
    logger_write l stack date usec (some pfx) msg = .ok (outputs l (date ++ millis usec ++ pfx ++ msg ++ [10])) := by
  unfold Short at hs
  obtain ⟨b1, b2, b3, h1, h2, h3, l3, t3⟩ := head_fits g
  obtain ⟨b4, h4, l4, t4⟩ := snprintf_fits (pos := 22 + pfx.length) (s := msg) l3 (by omega)
  obtain ⟨b5, h5, l5, t5⟩ := snprintf_fits (pos := 22 + pfx.length + msg.length) (s := [10]) l4 (by simp; omega)
  rw [t3] at t4
  rw [t4] at t5
  simp only [List.length_singleton] at h5 t5
  have hload : load b5 (22 + pfx.length + msg.length + 1) = .ok (date ++ millis usec ++ pfx ++ msg ++ [10]) := by
    unfold load
    rw [if_pos (by omega), t5]
  unfold logger_write outputs
  obtain ⟨en, so, fd⟩ := l
  cases en with
  | false => simp
  | true =>
    simp only [Bool.not_true, Bool.false_eq_true, if_false, true_and, h1, h2, h3, h4, h5, Res.bind_ok, Nat.reduceAdd, hload]
    cases fd <;> cases so <;> simp [Res.bind_ok]

/-- A message that is too long: the end of the line is stored after the buffer. -/
theorem logged_long {l : Logger} {stack date : Bytes} {usec : Nat} {pfx msg : Bytes} (g : Given stack date usec pfx)
    (he : l.enable = true) (hs : 1024 < 22 + pfx.length + msg.length) (hl : msg.length < 2147483648) :
    logger_write l stack date usec (some pfx) msg = .ub "write past the end of the buffer" := by
  have hp := pfx_length g.pfx
  obtain ⟨b1, b2, b3, h1, h2, h3, l3, t3⟩ := head_fits g
  have h4 : ∃ b4, snprintf b3 (22 + pfx.length) (left (22 + pfx.length)) msg = .ok (b4, msg.length) ∧ b4.length = 1024 := by
    unfold snprintf store
    rw [left_small (by omega), if_neg (by omega), if_pos (by simp; omega), Res.bind_ok]
    exact ⟨_, rfl, by simp; omega⟩
  obtain ⟨b4, h4, l4⟩ := h4
  have hL : left (22 + pfx.length + msg.length) ≠ 0 := by unfold left wrapU64; omega
  have hL1 : 1 ≤ left (22 + pfx.length + msg.length) - 1 := by unfold left wrapU64; omega
  have h5 : snprintf b4 (22 + pfx.length + msg.length) (left (22 + pfx.length + msg.length)) [10] =
      .ub "write past the end of the buffer" := by
    unfold snprintf store
    rw [if_neg hL, List.take_of_length_le (by simpa using hL1), if_neg (by simp; omega)]
    rfl
  unfold logger_write
  simp only [he, Bool.not_true, Bool.false_eq_true, if_false, h1, h2, h3, h4, h5, Res.bind_ok]
  rfl

/-- The text of the error. -/
theorem text_short {e : Bytes} (he : e.length = 256) {msg : Bytes} (h0 : (0 : UInt8) ∉ msg) :
    ∃ t, snprintf e 0 256 msg = .ok (t, msg.length) ∧ ∀ n, monotone_error ⟨t, n⟩ = .ok (msg.take 255) := by
  have hl := List.length_take_le 255 msg
  unfold snprintf store
  rw [if_neg (by omega), if_pos (by simp; omega), Res.bind_ok]
  refine ⟨_, rfl, fun n => ?_⟩
  have hn : ∀ c ∈ msg.take 255, (c != 0) = true := by
    intro c hc
    have := List.mem_of_mem_take hc
    simp only [bne_iff_ne, ne_eq]
    rintro rfl
    exact h0 this
  unfold monotone_error
  simp only [List.take_zero, List.nil_append, List.append_assoc, Nat.reduceSub]
  rw [if_pos (by simp)]
  congr 1
  rw [List.takeWhile_append_of_pos hn]
  simp

end Verif.C65
