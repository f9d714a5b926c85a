import Verif.Proofs.C28

/-! C28: partition file names. -/
namespace Verif.C28
open FileName

/-- Round trip: the name written for a partition and state decodes to them. -/
theorem C28_name_round_trip (min : Nat) (st : FState) (h : min < 18446744073709551616) :
    recoverId (idName min st) = .ok (some (min, st)) := by
  have hlt : min < 10 ^ 20 := by omega
  rw [recoverId_eq, idName_eq, digits_run _ _ (suffix_dot st) 0 (decPad_digits _ _) (by
    rw [number_decPad 20 min hlt]; omega)]
  simp only [Res.bind_ok, number_decPad 20 min hlt, Nat.zero_mul, Nat.zero_add]
  rw [(stateOf_iff min min _ st).2 ⟨rfl, rfl⟩]

/-- Different partitions or states never share a name. -/
theorem C28_names_distinct (m n : Nat) (s t : FState) (hm : m < 18446744073709551616)
    (hn : n < 18446744073709551616) (h : idName m s = idName n t) : m = n ∧ s = t := by
  have h1 := C28_name_round_trip m s hm
  rw [h, C28_name_round_trip n t hn] at h1
  simpa [eq_comm] using h1

/-- Partial: exact (accepted if and only if written by the code) for ASCII names
with a 20 character stem below 2^64.  Missing: other foreign names; some are
accepted (C28_foreign_name_accepted, C28_number_wraps). -/
theorem C28_names_partial (name : List Nat) (h : Tame name) : Identifies name := by
  obtain ⟨hascii, hlen, hnum⟩ := h
  have hsplit : name = stem name ++ name.dropWhile (· ≠ 46) :=
    (List.takeWhile_append_dropWhile).symm
  have hstem : ∀ c ∈ stem name, c < 128 ∧ c ≠ 46 := by
    intro c hc
    refine ⟨hascii c (by rw [hsplit]; exact List.mem_append_left _ hc), ?_⟩
    have : ∀ {l : List Nat}, c ∈ l.takeWhile (· ≠ 46) → c ≠ 46 := by
      intro l
      induction l with
      | nil => simp
      | cons a l ih =>
        intro h
        by_cases ha : a = 46
        · simp [ha] at h
        · rw [List.takeWhile_cons_of_pos (by simpa using ha)] at h
          rcases List.mem_cons.1 h with rfl | h
          · exact ha
          · exact ih h
    exact this hc
  have hrest : name.dropWhile (· ≠ 46) = [] ∨ ∃ r, name.dropWhile (· ≠ 46) = 46 :: r := by
    have : ∀ l : List Nat, l.dropWhile (· ≠ 46) = [] ∨ ∃ r, l.dropWhile (· ≠ 46) = 46 :: r := by
      intro l
      induction l with
      | nil => exact .inl rfl
      | cons a l ih =>
        by_cases ha : a = 46
        · subst ha; exact .inr ⟨l, by simp⟩
        · rw [List.dropWhile_cons_of_pos (by simpa using ha)]; exact ih
    exact this name
  generalize hD : name.dropWhile (· ≠ 46) = rest at hsplit hrest
  generalize stem name = s at *
  by_cases hd : Digits s
  · refine ⟨stateOf (number s) rest, ?_, fun min st hmin => ?_⟩
    · rw [recoverId_eq, hsplit, digits_run s rest hrest 0 hd (by omega)]
      simp
    · rw [stateOf_iff, idName_eq]
      constructor
      · rintro ⟨rfl, rfl⟩
        rw [hsplit, ← hlen, decPad_number hd]
      · intro h
        rw [hsplit] at h
        obtain ⟨h1, h2⟩ := List.append_inj h (by rw [hlen, decPad_length])
        refine ⟨?_, h2⟩
        rw [h1, number_decPad 20 min (by omega)]
  · refine ⟨none, ?_, fun min st hmin => ?_⟩
    · rw [recoverId_eq, hsplit, digits_bad s hstem hd]; rfl
    · simp only [reduceCtorEq, false_iff]
      intro h
      rw [hsplit, idName_eq] at h
      obtain ⟨h1, _⟩ := List.append_inj h (by rw [hlen, decPad_length])
      exact hd (h1 ▸ decPad_digits _ _)

/-- False of the code: the foreign file name "1" is taken for partition 1. -/
theorem C28_foreign_name_accepted : recoverId [49] = .ok (some (1, .id)) := by decide +kernel

/-- A number above 2^64 wraps: "18446744073709551617" is taken for partition 1. -/
theorem C28_number_wraps :
    recoverId ("18446744073709551617".toList.map (·.toNat)) = .ok (some (1, .id)) := by decide +kernel

theorem C28_names_false : ¬ Full := by
  intro h
  obtain ⟨r, h1, h2⟩ := h [49] (by simp [IsName])
  rw [C28_foreign_name_accepted] at h1
  have h3 := (h2 1 .id (by decide)).1 (Res.ok.inj h1).symm
  have := congrArg List.length h3
  simp [idName, decPad_length] at this

example : Tame ("00000000000003000000.cloud".toList.map (·.toNat)) := by
  refine ⟨?_, ?_, ?_⟩ <;> decide +kernel

example : idName 3000000 .cloud = "00000000000003000000.cloud".toList.map (·.toNat) := by decide +kernel

end Verif.C28
