import Verif.Spec.C45

/-! Helper lemmas for C45. -/
namespace Verif.C45
open Uuid

theorem hexDigit_iff (c d : Nat) : hexDigit c = some d ↔ d < 16 ∧ lower c = hexChar d := by
  unfold hexDigit lower hexChar
  constructor
  · intro h
    split at h
    · simp at h; split <;> split <;> omega
    · split at h
      · simp at h; split <;> split <;> omega
      · split at h
        · simp at h; split <;> split <;> omega
        · simp at h
  · rintro ⟨h1, h2⟩
    split at h2 <;> split at h2
    · omega
    · rw [if_neg (by omega), if_neg (by omega), if_pos (by omega)]; congr 1; omega
    · rw [if_pos (by omega)]; congr 1; omega
    · rw [if_neg (by omega), if_pos (by omega)]; congr 1; omega

theorem lower_dash (c : Nat) : lower c = 45 ↔ c = 45 := by
  unfold lower; split <;> omega

/-- Value of a run of digits. -/
def hexVal : List Nat → Nat → Option Nat
  | [], v => some v
  | c :: cs, v => match hexDigit c with
    | none => none
    | some d => hexVal cs (shiftIn v d)

theorem hexPad_length (w n : Nat) : (hexPad w n).length = w := by
  induction w with
  | zero => rfl
  | succ w ih => simp [hexPad, ih]

theorem hexPad_mod (w n k : Nat) : hexPad w (n + 16 ^ w * k) = hexPad w n := by
  induction w generalizing k with
  | zero => rfl
  | succ w ih =>
    have e : 16 ^ (w + 1) * k = 16 ^ w * (16 * k) := by rw [Nat.pow_succ, Nat.mul_assoc]
    have hp : 0 < 16 ^ w := Nat.pow_pos (by omega)
    simp only [hexPad, e, ih, Nat.add_mul_div_left _ _ hp]
    congr 2; omega

theorem hexChar_inj {a b : Nat} (ha : a < 16) (hb : b < 16) (h : hexChar a = hexChar b) : a = b := by
  unfold hexChar at h; split at h <;> split at h <;> omega

/-- Digits are read as the number they print, for runs of at most 8 digits. -/
theorem hexVal_iff (cs : List Nat) : ∀ (v0 v : Nat), (v0 + 1) * 16 ^ cs.length ≤ 18446744073709551616 →
    (hexVal cs v0 = some v ↔
      ∃ n, n < 16 ^ cs.length ∧ v = v0 * 16 ^ cs.length + n ∧ cs.map lower = hexPad cs.length n) := by
  induction cs with
  | nil =>
    intro v0 v _
    simp only [hexVal, List.length_nil, Nat.pow_zero, List.map_nil, hexPad]
    constructor
    · intro h; exact ⟨0, by omega, by simp at h; omega, trivial⟩
    · rintro ⟨n, h1, h2, _⟩; simp; omega
  | cons c cs ih =>
    intro v0 v hb
    have e : 16 ^ (c :: cs).length = 16 ^ cs.length * 16 := by simp [Nat.pow_succ]
    rw [e] at hb ⊢
    have hp : 0 < 16 ^ cs.length := Nat.pow_pos (by omega)
    have hmod := hexPad_mod cs.length
    generalize hP : 16 ^ cs.length = P at *
    have e2 : ∀ x, x * (P * 16) = x * 16 * P := fun x => by rw [Nat.mul_assoc, Nat.mul_comm 16 P]
    have hpad : ∀ n, hexPad (c :: cs).length n = hexChar (n / P % 16) :: hexPad cs.length n := by
      intro n; simp only [List.length_cons, hexPad, hP]
    simp only [hexVal, hpad, List.map_cons]
    rw [e2] at hb
    have hv0 : (v0 + 1) * 16 * 1 ≤ (v0 + 1) * 16 * P := Nat.mul_le_mul_left _ hp
    cases hd : hexDigit c with
    | none =>
      simp only [reduceCtorEq, false_iff]
      rintro ⟨n, h1, h2, h3⟩
      have h4 := (List.cons.inj h3).1
      have h5 := (hexDigit_iff c (n / P % 16)).2 ⟨Nat.mod_lt _ (by omega), h4⟩
      rw [hd] at h5; simp at h5
    | some d =>
      obtain ⟨hd1, hd2⟩ := (hexDigit_iff c d).1 hd
      have hs : shiftIn v0 d = v0 * 16 + d := by
        unfold shiftIn; rw [Nat.mod_eq_of_lt (by omega), Nat.mod_eq_of_lt hd1]
      dsimp only
      rw [hs]
      have h6 : (v0 * 16 + d + 1) * P ≤ (v0 + 1) * 16 * P := Nat.mul_le_mul_right _ (by omega)
      rw [ih _ _ (by omega)]
      have e3 : (v0 * 16 + d) * P = v0 * 16 * P + d * P := Nat.add_mul _ _ _
      rw [e2, e3]
      have hdP : (d + 1) * P ≤ 16 * P := Nat.mul_le_mul_right _ (by omega)
      rw [Nat.add_mul, Nat.one_mul] at hdP
      constructor
      · rintro ⟨n, h1, h2, h3⟩
        refine ⟨n + P * d, by rw [Nat.mul_comm P d]; omega, by rw [Nat.mul_comm P d]; omega, ?_⟩
        rw [h3, hmod, Nat.add_mul_div_left _ _ hp, Nat.div_eq_of_lt h1, hd2]
        congr 2; omega
      · rintro ⟨n, h1, h2, h3⟩
        obtain ⟨h4, h5⟩ := List.cons.inj h3
        have hq : n / P < 16 := Nat.div_lt_of_lt_mul h1
        have hdq : d = n / P := by
          apply hexChar_inj hd1 hq
          rw [← hd2, h4, Nat.mod_eq_of_lt hq]
        have hn : P * (n / P) + n % P = n := Nat.div_add_mod n P
        refine ⟨n % P, Nat.mod_lt _ hp, ?_, ?_⟩
        · rw [h2, hdq, Nat.mul_comm (n / P) P]; omega
        · rw [h5]
          conv => lhs; rw [← hn, Nat.add_comm]
          rw [hmod]

/-- A run of digit positions. -/
theorem parse_run (cs rest : List Nat) (x : UuidBits) : ∀ (i v : Nat),
    (∀ j, i ≤ j → j < i + cs.length → j ≠ 8 ∧ j ≠ 13 ∧ j ≠ 18 ∧ j ≠ 23 ∧ j ≠ 28) →
    parseLoop i (cs ++ rest) x v = (hexVal cs v).bind fun v' => parseLoop (i + cs.length) rest x v' := by
  induction cs with
  | nil => intro i v _; simp [hexVal]
  | cons c cs ih =>
    intro i v h
    obtain ⟨h1, h2, h3, h4, h5⟩ := h i (by omega) (by simp)
    simp only [List.cons_append, parseLoop, if_neg h1, if_neg h2, if_neg h3, if_neg h4, if_neg h5]
    simp only [hexVal]
    cases hexDigit c with
    | none => rfl
    | some d =>
      dsimp only
      rw [ih _ _ (fun j k1 k2 => h j (by omega) (by simp only [List.length_cons]; omega))]
      have : i + 1 + cs.length = i + (c :: cs).length := by simp only [List.length_cons]; omega
      rw [this]

/-- A run of digits that starts at position 28. -/
theorem parse_run28 (c : Nat) (cs : List Nat) (hlen : cs.length = 7) (x : UuidBits) (v : Nat) :
    parseLoop 28 (c :: cs) x v =
      (hexVal (c :: cs) 0).bind fun v' => some ({ x with e := v % 65536 }, v') := by
  have hr : ∀ w x', parseLoop 29 cs x' w = (hexVal cs w).bind fun v' => some (x', v') := by
    intro w x'
    have := parse_run cs [] x' 29 w (by intro j h1 h2; omega)
    simpa [parseLoop] using this
  simp only [parseLoop, hexVal]
  rw [if_neg (by omega), if_neg (by omega), if_neg (by omega), if_neg (by omega), if_pos trivial]
  dsimp only
  cases hexDigit c with
  | none => rfl
  | some d => exact hr _ _

theorem parse_dash (i : Nat) (ch : Nat) (rest : List Nat) (x : UuidBits) (v : Nat) :
    (i = 8 → parseLoop i (ch :: rest) x v =
      if ch ≠ 45 then none else parseLoop 9 rest { x with a := v % 4294967296 } 0) ∧
    (i = 13 → parseLoop i (ch :: rest) x v =
      if ch ≠ 45 then none else parseLoop 14 rest { x with b := v % 65536 } 0) ∧
    (i = 18 → parseLoop i (ch :: rest) x v =
      if ch ≠ 45 then none else parseLoop 19 rest { x with c := v % 65536 } 0) ∧
    (i = 23 → parseLoop i (ch :: rest) x v =
      if ch ≠ 45 then none else parseLoop 24 rest { x with d := v % 65536 } 0) := by
  refine ⟨?_, ?_, ?_, ?_⟩ <;> rintro rfl <;> simp [parseLoop]

theorem split_at {α : Type} (n : Nat) (s : List α) (h : n < s.length) :
    ∃ A c B, s = A ++ c :: B ∧ A.length = n ∧ B.length = s.length - n - 1 := by
  refine ⟨s.take n, s[n], s.drop (n + 1), ?_, by simp; omega, by simp; omega⟩
  rw [← List.drop_eq_getElem_cons h, List.take_append_drop]

/-- The parser on a text of 36 characters, field by field. -/
theorem parse36 (A B C D E F : List Nat) (c1 c2 c3 c4 : Nat) (x : UuidBits)
    (hA : A.length = 8) (hB : B.length = 4) (hC : C.length = 4) (hD : D.length = 4)
    (hE : E.length = 4) (hF : F.length = 8) :
    parseLoop 0 (A ++ c1 :: (B ++ c2 :: (C ++ c3 :: (D ++ c4 :: (E ++ F))))) x 0 =
      (hexVal A 0).bind fun a => if c1 ≠ 45 then none else
      (hexVal B 0).bind fun b => if c2 ≠ 45 then none else
      (hexVal C 0).bind fun c => if c3 ≠ 45 then none else
      (hexVal D 0).bind fun d => if c4 ≠ 45 then none else
      (hexVal E 0).bind fun e => (hexVal F 0).bind fun f =>
        some (⟨a % 4294967296, b % 65536, c % 65536, d % 65536, e % 65536, x.f⟩, f) := by
  rw [parse_run _ _ _ _ _ (by intro j h1 h2; omega), hA]
  congr 1; funext a
  rw [(parse_dash 8 _ _ _ _).1 rfl]
  split
  · rfl
  rw [parse_run _ _ _ _ _ (by intro j h1 h2; omega), hB]
  congr 1; funext b
  rw [(parse_dash 13 _ _ _ _).2.1 rfl]
  split
  · rfl
  rw [parse_run _ _ _ _ _ (by intro j h1 h2; omega), hC]
  congr 1; funext c
  rw [(parse_dash 18 _ _ _ _).2.2.1 rfl]
  split
  · rfl
  rw [parse_run _ _ _ _ _ (by intro j h1 h2; omega), hD]
  congr 1; funext d
  rw [(parse_dash 23 _ _ _ _).2.2.2 rfl]
  split
  · rfl
  rw [parse_run _ _ _ _ _ (by intro j h1 h2; omega), hE]
  congr 1; funext e
  cases F with
  | nil => simp at hF
  | cons c F => rw [parse_run28 c F (by simpa using hF)]

theorem hexVal8 {A : List Nat} (h : A.length = 8) (a : Nat) :
    hexVal A 0 = some a ↔ a < 4294967296 ∧ A.map lower = hexPad 8 a := by
  rw [hexVal_iff A 0 a (by rw [h]; decide), h]
  constructor
  · rintro ⟨n, h1, h2, h3⟩
    have : a = n := by omega
    subst this; exact ⟨by simpa using h1, h3⟩
  · rintro ⟨h1, h2⟩; exact ⟨a, by simpa using h1, by omega, h2⟩

theorem hexVal4 {A : List Nat} (h : A.length = 4) (a : Nat) :
    hexVal A 0 = some a ↔ a < 65536 ∧ A.map lower = hexPad 4 a := by
  rw [hexVal_iff A 0 a (by rw [h]; decide), h]
  constructor
  · rintro ⟨n, h1, h2, h3⟩
    have : a = n := by omega
    subst this; exact ⟨by simpa using h1, h3⟩
  · rintro ⟨h1, h2⟩; exact ⟨a, by simpa using h1, by omega, h2⟩

theorem bits_inj {u : Uuid} {x : UuidBits} (hu : Legal u) (ha : x.a < 4294967296) (hb : x.b < 65536)
    (hc : x.c < 65536) (hd : x.d < 65536) (he : x.e < 65536) (hf : x.f < 4294967296) :
    ofBits x = u ↔ x = u.bits := by
  obtain ⟨h1, h2⟩ := hu
  obtain ⟨ua, ub⟩ := u
  obtain ⟨a, b, c, d, e, f⟩ := x
  simp only [ofBits, bits, Uuid.mk.injEq, UuidBits.mk.injEq] at *
  omega

theorem bits_range (u : Uuid) : u.bits.a < 4294967296 ∧ u.bits.b < 65536 ∧ u.bits.c < 65536 ∧
    u.bits.d < 65536 ∧ u.bits.e < 65536 ∧ u.bits.f < 4294967296 := by
  simp only [bits]; omega

theorem text_length (u : Uuid) : (text u).length = 36 := by
  simp [text, hexPad_length]

end Verif.C45
