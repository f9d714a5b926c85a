import Verif.Spec.C47

/-! Helper lemmas about the tokenizer. -/
namespace Verif.C47
open Lex

theorem skip_blank (blank rest : List Nat) (h : IsBlank blank) : skip false (blank ++ rest) = skip false rest := by
  induction blank with
  | nil => rfl
  | cons c cs ih =>
    have hc := h c (by simp)
    have hs : isSpace c = true := by
      simp only [isSpace, Bool.or_eq_true, beq_iff_eq, Bool.and_eq_true, decide_eq_true_eq]; exact hc
    simp only [List.cons_append, skip]
    rw [if_neg (by omega), if_pos hs, ih (fun d hd => h d (by simp [hd]))]

theorem skip_stop (c : Nat) (cs : List Nat) (h1 : c < 128) (h2 : isSpace c = false) (h3 : c ≠ 35) :
    skip false (c :: cs) = .ok (c :: cs) := by
  simp only [skip]
  rw [if_neg (by omega), if_neg (by simp [h2]), if_neg h3]

theorem value_foldl (s : List Nat) (n : Nat) :
    s.foldl (fun n c => n * 10 + (c - 48)) n = n * 10 ^ s.length + value s := by
  induction s generalizing n with
  | nil => simp [value]
  | cons c s ih =>
    simp only [value, List.foldl_cons, List.length_cons]
    rw [ih, ih (0 * 10 + (c - 48)), Nat.pow_succ, Nat.add_mul, Nat.zero_mul, Nat.zero_add,
      Nat.mul_assoc, Nat.mul_comm 10]
    omega

/-- The digits of an integer modulo 2^64. -/
theorem number_run (s rest : List Nat) (hs : ∀ c ∈ s, 48 ≤ c ∧ c ≤ 57)
    (hrest : ∀ c r, rest = c :: r → c < 128 ∧ isDigit c = false ∧ c ≠ 46 ∧ c ≠ 101 ∧ c ≠ 69) :
    ∀ n, n < 18446744073709551616 → Lex.number (s ++ rest) n =
      .ok (some ((s.foldl (fun n c => n * 10 + (c - 48)) n) % 18446744073709551616, rest)) := by
  induction s with
  | nil =>
    intro n hn
    cases rest with
    | nil => simp [Lex.number, Nat.mod_eq_of_lt hn]
    | cons c r =>
      obtain ⟨h1, h2, h3, h4, h5⟩ := hrest c r rfl
      simp only [List.nil_append, Lex.number]
      rw [if_neg (by omega), if_neg (by omega), if_neg (by simp [h2])]
      simp [Nat.mod_eq_of_lt hn]
  | cons c s ih =>
    intro n hn
    have hc := hs c (by simp)
    have hd : isDigit c = true := by simp [isDigit, hc]
    simp only [List.cons_append, Lex.number, List.foldl_cons]
    rw [if_neg (by omega), if_neg (by omega), if_pos hd]
    have hw : wrapU64 ((n : Int) * 10 + c - 48) = (n * 10 + (c - 48)) % 18446744073709551616 := by
      unfold wrapU64; omega
    rw [hw, ih (fun d hd => hs d (by simp [hd])) _ (Nat.mod_lt _ (by omega))]
    congr 3
    rw [value_foldl, value_foldl]
    generalize 10 ^ s.length = P
    rw [Nat.add_mod, Nat.mul_mod]
    conv => rhs; rw [Nat.add_mod, Nat.mul_mod]
    simp

theorem nameChars_run (w rest : List Nat) (hw : ∀ c ∈ w, isAlpha c = true) (hr : EndsWord rest) :
    nameChars (w ++ rest) = .ok (w, rest) := by
  induction w with
  | nil =>
    cases rest with
    | nil => rfl
    | cons c r =>
      obtain ⟨h1, h2, h3, h4, h5, h6⟩ := hr c r rfl
      simp only [List.nil_append, nameChars]
      rw [if_neg (by omega), if_neg (by omega), if_neg (by simp [h2, h3])]
  | cons c w ih =>
    have hc := hw c (by simp)
    have hr' : (65 ≤ c ∧ c ≤ 90) ∨ (97 ≤ c ∧ c ≤ 122) := by simpa [isAlpha] using hc
    simp only [List.cons_append, nameChars]
    rw [ih (fun d hd => hw d (by simp [hd])), Res.bind_ok]
    split
    · rfl
    · rw [if_neg (by omega), if_pos (by simp [hc])]

theorem lower_lower (c : Nat) : lower (lower c) = lower c := by
  unfold lower
  by_cases h : 65 ≤ c ∧ c ≤ 90
  · rw [if_pos h, if_neg (by omega)]
  · rw [if_neg h, if_neg h]

/-- The keyword search does not depend on the case of the word. -/
theorem findKeyword_lower (w : List Nat) : findKeyword w = findKeyword (w.map lower) := by
  unfold findKeyword
  congr 2
  funext row
  simp only [rowMatches, List.length_map, List.map_take, List.map_map]
  congr 3
  exact List.map_congr_left (fun c _ => (lower_lower c).symm)

theorem alpha_of_lower (c : Nat) (h : 97 ≤ lower c ∧ lower c ≤ 122) : isAlpha c = true := by
  unfold lower at h
  simp only [isAlpha, Bool.or_eq_true, Bool.and_eq_true, decide_eq_true_eq]
  split at h <;> omega

/-- Reading a unit word. -/
theorem next_word (word : String) (k : Kw) (fuel : Nat) (w rest blank : List Nat)
    (hk : findKeyword (bytes word) = some k) (hl : ∀ c ∈ bytes word, 97 ≤ c ∧ c ≤ 122)
    (hne : bytes word ≠ []) (hw : Spells w word) (hr : EndsWord rest) (hb : IsBlank blank) :
    nextF (fuel + 1) (start (blank ++ w ++ rest)) = .ok (.keyword k w, start rest) := by
  have ha : ∀ c ∈ w, isAlpha c = true := by
    intro c hc
    apply alpha_of_lower
    apply hl
    rw [← hw]
    exact List.mem_map_of_mem hc
  cases w with
  | nil => rw [← hw] at hne; exact absurd rfl hne
  | cons c w =>
    have hc := ha c (by simp)
    have hcr : (65 ≤ c ∧ c ≤ 90) ∨ (97 ≤ c ∧ c ≤ 122) := by simpa [isAlpha] using hc
    have hsp : isSpace c = false := by simp [isSpace]; omega
    have hp : isPunct c = false := by simp [isPunct]; omega
    have hd : isDigit c = false := by simp [isDigit]; omega
    simp only [start, nextF, List.append_assoc]
    rw [skip_blank _ _ hb, List.cons_append, skip_stop _ _ (by omega) hsp (by omega), Res.bind_ok]
    dsimp only
    rw [if_neg (by simp [hp]), if_neg (by simp [hd]), if_pos (by simp [hc]), ← List.cons_append,
      nameChars_run _ _ ha hr, Res.bind_ok]
    dsimp only
    rw [findKeyword_lower, hw, hk]
    rfl

/-- Reading an integer followed by a unit word. -/
theorem next_int_unit (word : String) (u : LUnit) (s blank w rest : List Nat)
    (hk : findKeyword (bytes word) = some (.unit u)) (hl : ∀ c ∈ bytes word, 97 ≤ c ∧ c ≤ 122)
    (hne : bytes word ≠ []) (he : (bytes word).head? ≠ some 101)
    (hs : IsNumber s) (hb : IsBlank blank) (hw : Spells w word) (hr : EndsWord rest) :
    next (start (s ++ blank ++ w ++ rest)) =
      .ok (.int (wrapU64 (((value s % 18446744073709551616 : Nat) : Int) * factor u)), start rest) := by
  obtain ⟨hs1, hs2⟩ := hs
  have hrest : ∀ c r, (blank ++ w ++ rest) = c :: r → c < 128 ∧ isDigit c = false ∧ c ≠ 46 ∧ c ≠ 101 ∧ c ≠ 69 := by
    intro c r e
    cases blank with
    | cons b bs =>
      simp only [List.cons_append, List.append_assoc, List.cons.injEq] at e
      have := hb b (by simp)
      obtain ⟨rfl, _⟩ := e
      refine ⟨by omega, by simp [isDigit]; omega, by omega, by omega, by omega⟩
    | nil =>
      cases w with
      | nil => rw [← hw] at hne; exact absurd rfl hne
      | cons d ds =>
        simp only [List.nil_append, List.cons_append, List.cons.injEq] at e
        obtain ⟨rfl, _⟩ := e
        rw [← hw, List.map_cons, List.head?_cons, ne_eq, Option.some.injEq] at he
        have h2 := hl (lower d) (by rw [← hw]; simp)
        have h3 := alpha_of_lower d h2
        have hcr : (65 ≤ d ∧ d ≤ 90) ∨ (97 ≤ d ∧ d ≤ 122) := by simpa [isAlpha] using h3
        unfold lower at he
        refine ⟨by omega, by simp [isDigit]; omega, by omega, ?_, ?_⟩
        · rintro rfl; simp at he
        · rintro rfl; simp at he
  cases s with
  | nil => exact absurd rfl hs1
  | cons c s =>
    have hc := hs2 c (by simp)
    have hsp : isSpace c = false := by simp [isSpace]; omega
    have hp : isPunct c = false := by simp [isPunct]; omega
    have hd : isDigit c = true := by simp [isDigit]; omega
    have hassoc : (c :: s) ++ blank ++ w ++ rest = (c :: s) ++ (blank ++ w ++ rest) := by
      simp [List.append_assoc]
    simp only [next, start]
    rw [hassoc]
    generalize hfuel : (c :: s ++ (blank ++ w ++ rest)).length = fuel
    have hf : ∃ f, fuel = f + 1 := by
      rw [List.cons_append, List.length_cons] at hfuel
      exact ⟨_, hfuel.symm⟩
    obtain ⟨f, rfl⟩ := hf
    rw [nextF, List.cons_append, skip_stop _ _ (by omega) hsp (by omega), Res.bind_ok]
    dsimp only
    rw [if_neg (by simp [hp]), if_pos hd, ← List.cons_append,
      number_run (c :: s) _ hs2 hrest 0 (by decide), Res.bind_ok]
    dsimp only
    have hnw := next_word word (.unit u) f w rest blank hk hl hne hw hr hb
    unfold start at hnw
    rw [hnw, Res.bind_ok]
    rfl

end Verif.C47
