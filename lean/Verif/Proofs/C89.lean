import Verif.Spec.C89

/-! C89: lemmas. -/

namespace Verif.C89
open Verif.Messages

theorem digit_ok (b d : Nat) (hb : b = 10 ∨ b = 16) (h : d < b) :
    IsDigit b (digit d) ∧ digitValue (digit d) = d := by
  have h16 : d < 16 := by omega
  rcases hb with rfl | rfl
  · have : ∀ d < 10, ((48 ≤ digit d ∧ digit d ≤ 57) ∨ (10 = 16 ∧ 97 ≤ digit d ∧ digit d ≤ 102)) ∧
        digitValue (digit d) = d := by decide +kernel
    exact this d h
  · have : ∀ d < 16, ((48 ≤ digit d ∧ digit d ≤ 57) ∨ (16 = 16 ∧ 97 ≤ digit d ∧ digit d ≤ 102)) ∧
        digitValue (digit d) = d := by decide +kernel
    exact this d h

theorem digits_fuel (b : Nat) (hb : b = 10 ∨ b = 16) :
    ∀ k n, n < k → Numeral b (digitsFuel b k n) n := by
  intro k
  induction k with
  | zero => intro n h; omega
  | succ k ih =>
    intro n h
    unfold digitsFuel
    by_cases hn : n < b
    · rw [if_pos hn]
      have := digit_ok b n hb hn
      refine ⟨by simp, by simpa using this.1, ?_⟩
      simpa using this.2
    · rw [if_neg hn]
      have hlt : n / b < k := by
        have : n / b < n := Nat.div_lt_self (by omega) (by omega)
        omega
      obtain ⟨_, h2, h3⟩ := ih _ hlt
      have hd := digit_ok b (n % b) hb (Nat.mod_lt _ (by omega))
      refine ⟨by simp, ?_, ?_⟩
      · intro c hc
        rcases List.mem_append.mp hc with hc | hc
        · exact h2 c hc
        · rw [List.mem_singleton] at hc; subst hc; exact hd.1
      · rw [List.foldl_append, h3]
        simp only [List.foldl_cons, List.foldl_nil, hd.2]
        exact Nat.div_add_mod n b

theorem numeral_digits (b : Nat) (hb : b = 10 ∨ b = 16) (n : Nat) : Numeral b (digits b n) n :=
  digits_fuel b hb _ _ (Nat.lt_succ_self n)

theorem numeral_zeros (b : Nat) {ds : Bytes} {n : Nat} (h : Numeral b ds n) (k : Nat) :
    Numeral b (List.replicate k 48 ++ ds) n := by
  obtain ⟨h1, h2, h3⟩ := h
  refine ⟨by simp [h1], ?_, ?_⟩
  · intro c hc
    rcases List.mem_append.mp hc with hc | hc
    · rw [List.eq_of_mem_replicate hc]; exact Or.inl (by decide)
    · exact h2 c hc
  · rw [List.foldl_append]
    have : ∀ k, (List.replicate k (48 : UInt8)).foldl (fun a c => b * a + digitValue c) 0 = 0 := by
      intro k
      induction k with
      | zero => rfl
      | succ k ih =>
        rw [List.replicate_succ, List.foldl_cons]
        have : b * 0 + digitValue 48 = 0 := by
          rw [Nat.mul_zero]; decide
        rw [this]; exact ih
    rw [this, h3]

theorem chars_prec (t rest : Bytes) (h : 0 ∉ t) : chars (t ++ rest) (some t.length) = .ok t := by
  induction t with
  | nil => cases rest <;> rfl
  | cons c t ih =>
    have hc : c ≠ 0 := fun e => h (by simp [e])
    have ih := ih (fun e => h (by simp [e]))
    rw [List.cons_append, List.length_cons]
    simp [chars, hc, ih, Res.map, Res.bind]

theorem chars_zero (t rest : Bytes) (h : 0 ∉ t) : chars (t ++ 0 :: rest) none = .ok t := by
  induction t with
  | nil => rfl
  | cons c t ih =>
    have hc : c ≠ 0 := fun e => h (by simp [e])
    have ih := ih (fun e => h (by simp [e]))
    rw [List.cons_append]
    unfold chars
    rw [if_neg hc]
    simp only [Option.map_none, ih]
    rfl

/-- The width of the conversion does no harm to a text. -/
def padText (s : Conv) : Bool := s.minus || s.width == 0

/-- The width of the conversion does no harm to a number. -/
def padNumber (s : Conv) : Bool := (s.zero && !s.minus) || s.width == 0

/-- The conversion is right for a value. -/
def agrees (s : Conv) : Kind → Bool
  | .text => s.letter == 115 && s.long == false && s.prec == .star && padText s
  | .string => s.letter == 115 && s.long == false && s.prec == .none && padText s
  | .u64 => s.letter == 117 && s.long && s.prec == .none && padNumber s
  | .i64 => (s.letter == 100 || s.letter == 105) && s.long && s.prec == .none && padNumber s
  | .int | .u8 => (s.letter == 100 || s.letter == 105) && s.long == false && s.prec == .none &&
      padNumber s
  | .u32 => s.letter == 117 && s.long == false && s.prec == .none && padNumber s
  | .hex32 | .hex16 => s.letter == 120 && s.long == false && s.prec == .none && padNumber s
  | .real => s.letter == 102 && s.long == false && (s.prec != .star) && s.width == 0
  | .pointer => s.letter == 112 && s.long == false && s.width == 0
  | .sized | .full => false

theorem pad_shows (s : Conv) (h : padText s = true) (t : Bytes) : Shows (.text t) (pad s t) := by
  unfold pad
  by_cases hm : s.minus = true
  · rw [if_pos hm]; exact ⟨_, rfl⟩
  · rw [if_neg hm]
    have hw : s.width = 0 := by
      unfold padText at h
      simp [hm] at h; exact h
    exact ⟨0, by simp [hw]⟩

theorem pad_zero (s : Conv) (h : s.width = 0) (t : Bytes) : pad s t = t := by
  unfold pad; simp [h]

theorem padNum_plain (s : Conv) (h : padNumber s = true) (b : Nat) (hb : b = 10 ∨ b = 16) (n : Nat)
    (sign : Bytes) : ∃ ds, padNum s sign (digits b n) = sign ++ ds ∧ Numeral b ds n := by
  have hd := numeral_digits b hb n
  unfold padNum
  by_cases hz : s.zero ∧ s.minus = false
  · rw [if_pos hz, List.append_assoc]
    exact ⟨_, rfl, numeral_zeros b hd _⟩
  · rw [if_neg hz]
    have hw : s.width = 0 := by
      unfold padNumber at h
      rcases Bool.or_eq_true .. ▸ h with h | h
      · exact absurd (by simpa using h) hz
      · simpa using h
    rw [pad_zero s hw]
    exact ⟨_, rfl, hd⟩

theorem signed_shows (s : Conv) (h : padNumber s = true) (v : Int) :
    Shows (.num v) (signedText s v) := by
  unfold signedText
  by_cases hv : v < 0
  · rw [if_pos hv]
    obtain ⟨ds, h1, h2⟩ := padNum_plain s h 10 (.inl rfl) v.natAbs [45]
    exact Or.inr ⟨hv, ds, by rw [h1]; rfl, h2⟩
  · rw [if_neg hv]
    obtain ⟨ds, h1, h2⟩ := padNum_plain s h 10 (.inl rfl) v.natAbs []
    exact Or.inl ⟨by omega, by rw [h1]; exact h2⟩

theorem unsigned_shows (s : Conv) (h : padNumber s = true) (n : Nat) :
    Shows (.num n) (padNum s [] (digits 10 n)) := by
  obtain ⟨ds, h1, h2⟩ := padNum_plain s h 10 (.inl rfl) n []
  exact Or.inl ⟨by omega, by rw [h1]; exact h2⟩

theorem hex_shows (s : Conv) (h : padNumber s = true) (n : Nat) :
    Shows (.hex n) (padNum s [] (digits 16 n)) := by
  obtain ⟨ds, h1, h2⟩ := padNum_plain s h 16 (.inr rfl) n []
  show Numeral 16 _ n
  rw [h1]; exact h2

theorem conv1_ok {s : Conv} {k : Kind} (h : agrees s k = true) {v : Value} {a : List Arg}
    (hp : Passed k v a) (r : List Arg) : ∃ t, conv1 s (a ++ r) = .ok (t, r) ∧ Shows v t := by
  cases hp with
  | text t rest ht =>
    simp only [agrees, Bool.and_eq_true, beq_iff_eq] at h
    obtain ⟨⟨⟨h1, h2⟩, h3⟩, h4⟩ := h
    refine ⟨pad s t, ?_, pad_shows s h4 t⟩
    have : ¬ ((t.length : Int) < 0) := by omega
    simp [conv1, h1, h2, precOf, h3, takeInt, Res.map, Res.bind, takeStr, this,
      chars_prec t rest ht.1]
  | empty =>
    simp only [agrees, Bool.and_eq_true, beq_iff_eq] at h
    obtain ⟨⟨⟨h1, h2⟩, h3⟩, h4⟩ := h
    refine ⟨pad s [], ?_, pad_shows s h4 []⟩
    simp [conv1, h1, h2, precOf, h3, takeInt, Res.map, Res.bind, takeStr]
  | string t rest ht =>
    simp only [agrees, Bool.and_eq_true, beq_iff_eq] at h
    obtain ⟨⟨⟨h1, h2⟩, h3⟩, h4⟩ := h
    refine ⟨pad s t, ?_, pad_shows s h4 t⟩
    simp [conv1, h1, h2, precOf, h3, Res.map, Res.bind, takeStr, chars_zero t rest ht.1]
  | u64 n hn =>
    simp only [agrees, Bool.and_eq_true, beq_iff_eq] at h
    obtain ⟨⟨⟨h1, h2⟩, h3⟩, h4⟩ := h
    exact ⟨_, by simp [conv1, h1, h2, h3, Res.map, Res.bind, takeUlong],
      unsigned_shows s h4 n⟩
  | i64 v h5 h6 =>
    simp only [agrees, Bool.and_eq_true, Bool.or_eq_true, beq_iff_eq] at h
    obtain ⟨⟨⟨h1, h2⟩, h3⟩, h4⟩ := h
    refine ⟨signedText s v, ?_, signed_shows s h4 v⟩
    rcases h1 with h1 | h1 <;> simp [conv1, h1, h2, h3, Res.map, Res.bind, takeLong]
  | int v h5 h6 =>
    simp only [agrees, Bool.and_eq_true, Bool.or_eq_true, beq_iff_eq] at h
    obtain ⟨⟨⟨h1, h2⟩, h3⟩, h4⟩ := h
    refine ⟨signedText s v, ?_, signed_shows s h4 v⟩
    rcases h1 with h1 | h1 <;> simp [conv1, h1, h2, h3, Res.map, Res.bind, takeInt]
  | u8 n hn =>
    simp only [agrees, Bool.and_eq_true, Bool.or_eq_true, beq_iff_eq] at h
    obtain ⟨⟨⟨h1, h2⟩, h3⟩, h4⟩ := h
    refine ⟨signedText s n, ?_, signed_shows s h4 n⟩
    rcases h1 with h1 | h1 <;> simp [conv1, h1, h2, h3, Res.map, Res.bind, takeInt]
  | u32 n hn =>
    simp only [agrees, Bool.and_eq_true, beq_iff_eq] at h
    obtain ⟨⟨⟨h1, h2⟩, h3⟩, h4⟩ := h
    exact ⟨_, by simp [conv1, h1, h2, h3, Res.map, Res.bind, takeUint],
      unsigned_shows s h4 n⟩
  | hex32 n hn =>
    simp only [agrees, Bool.and_eq_true, beq_iff_eq] at h
    obtain ⟨⟨⟨h1, h2⟩, h3⟩, h4⟩ := h
    exact ⟨_, by simp [conv1, h1, h2, h3, Res.map, Res.bind, takeUint], hex_shows s h4 n⟩
  | hex16 n hn =>
    simp only [agrees, Bool.and_eq_true, beq_iff_eq] at h
    obtain ⟨⟨⟨h1, h2⟩, h3⟩, h4⟩ := h
    exact ⟨_, by simp [conv1, h1, h2, h3, Res.map, Res.bind, takeUint], hex_shows s h4 n⟩
  | real f =>
    simp only [agrees, Bool.and_eq_true, beq_iff_eq, bne_iff_ne] at h
    obtain ⟨⟨⟨h1, h2⟩, h3⟩, h4⟩ := h
    cases hp : s.prec with
    | star => exact absurd hp h3
    | none => exact ⟨f 6, by simp [conv1, h1, h2, hp, pad_zero s h4], 6, rfl⟩
    | num n => exact ⟨f n, by simp [conv1, h1, h2, hp, pad_zero s h4], n, rfl⟩
  | pointer t =>
    simp only [agrees, Bool.and_eq_true, beq_iff_eq] at h
    obtain ⟨⟨h1, h2⟩, h3⟩ := h
    exact ⟨t, by simp [conv1, h1, h2, pad_zero s h3], rfl⟩
  | sized t rest ht => simp [agrees] at h
  | full t ht => simp [agrees] at h

/-- A letter before the first word. -/
def onto (c : UInt8) : List Bytes → List Bytes
  | [] => []
  | w :: ws => (c :: w) :: ws

/-- The words of a format, if its conversions are right for the values. -/
def fit : List Tok → List Kind → Option (List Bytes)
  | [], [] => some [[]]
  | .lit c :: ts, ks => (fit ts ks).map (onto c)
  | .conv s :: ts, k :: ks => if agrees s k then (fit ts ks).map ([] :: ·) else none
  | _, _ => none

theorem weave_onto (c : UInt8) {ws vs out} (h : Weave ws vs out) :
    Weave (onto c ws) vs (c :: out) := by
  cases h with
  | last w => exact .last _
  | next w ws v vs t out h1 h2 => exact .next (c :: w) ws v vs t out h1 h2

theorem fit_sound : ∀ ts ks ws, fit ts ks = some ws → ∀ vs args, Call ks vs args →
    ∃ out, render ts args = .ok out ∧ Weave ws vs out := by
  intro ts
  induction ts with
  | nil =>
    intro ks ws h vs args hc
    cases hc with
    | nil =>
      simp only [fit, Option.some.injEq] at h
      subst h
      exact ⟨[], rfl, .last []⟩
    | cons k v a ks vs as hp hc => simp [fit] at h
  | cons tok ts ih =>
    intro ks ws h vs args hc
    cases tok with
    | lit c =>
      simp only [fit, Option.map_eq_some_iff] at h
      obtain ⟨ws', h, rfl⟩ := h
      obtain ⟨out, h1, h2⟩ := ih _ _ h _ _ hc
      exact ⟨c :: out, by simp [render, h1, Res.map, Res.bind], weave_onto c h2⟩
    | bad => cases hc <;> simp [fit] at h
    | conv s =>
      cases hc with
      | nil => simp [fit] at h
      | cons k v a ks vs as hp hc =>
        simp only [fit] at h
        by_cases ha : agrees s k = true
        · rw [if_pos ha, Option.map_eq_some_iff] at h
          obtain ⟨ws', h, rfl⟩ := h
          obtain ⟨t, h1, h2⟩ := conv1_ok ha hp as
          obtain ⟨out, h3, h4⟩ := ih _ _ h _ _ hc
          refine ⟨t ++ out, by simp [render, h1, h3, Res.map, Res.bind], ?_⟩
          exact .next [] ws' v vs t out h2 h4
        · rw [if_neg ha] at h; exact absurd h (by simp)

/-- The words of a format, computed; `true` inside a conversion. -/
def split : Bool → Bytes → Option (List Bytes)
  | false, [] => some [[]]
  | true, [] => none
  | false, c :: r =>
    if c = 37 then (split true r).map ([] :: ·) else (split false r).map (onto c)
  | true, c :: r =>
    if c ∈ Decode.cstr "-.*0123456789l" then split true r
    else if c ∈ Decode.cstr "sduixfp" then split false r else none

theorem split_onto {c : UInt8} (hc : c ≠ 37) {b ws} (h : Split b ws) : Split (c :: b) (onto c ws) := by
  cases h with
  | last w hw => exact .last _ (by simp [hw, Ne.symm hc])
  | next w mid x rest ws h1 h2 h3 h4 =>
    exact .next (c :: w) mid x rest ws (by simp [h1, Ne.symm hc]) h2 h3 h4

theorem split_sound : ∀ b, (∀ ws, split false b = some ws → Split b ws) ∧
    ∀ ws, split true b = some ws → ∃ mid c rest, b = mid ++ c :: rest ∧
      (∀ x ∈ mid, x ∈ Decode.cstr "-.*0123456789l") ∧ c ∈ Decode.cstr "sduixfp" ∧ Split rest ws := by
  intro b
  induction b with
  | nil => exact ⟨fun ws h => by cases h; exact .last [] (by simp), fun ws h => by cases h⟩
  | cons c b ih =>
    constructor
    · intro ws h
      rw [split] at h
      by_cases hc : c = 37
      · rw [if_pos hc] at h
        obtain ⟨ws', h1, rfl⟩ := Option.map_eq_some_iff.mp h
        obtain ⟨mid, x, rest, rfl, h2, h3, h4⟩ := ih.2 _ h1
        subst hc
        exact .next [] mid x rest ws' (by simp) h2 h3 h4
      · rw [if_neg hc] at h
        obtain ⟨ws', h1, rfl⟩ := Option.map_eq_some_iff.mp h
        exact split_onto hc (ih.1 _ h1)
    · intro ws h
      rw [split] at h
      by_cases hm : c ∈ Decode.cstr "-.*0123456789l"
      · rw [if_pos hm] at h
        obtain ⟨mid, x, rest, rfl, h2, h3, h4⟩ := ih.2 _ h
        refine ⟨c :: mid, x, rest, rfl, ?_, h3, h4⟩
        intro y hy
        rcases List.mem_cons.mp hy with rfl | hy
        · exact hm
        · exact h2 y hy
      · rw [if_neg hm] at h
        by_cases hl : c ∈ Decode.cstr "sduixfp"
        · rw [if_pos hl] at h
          exact ⟨[], c, b, rfl, by simp, hl, ih.1 _ h⟩
        · rw [if_neg hl] at h; cases h

/-- A call whose format fits its values is right. -/
theorem right_of_fit (s : Site) (ws : List Bytes)
    (h : fit (tokens none (Decode.cstr s.fmt)) s.kinds = some ws)
    (h' : split false (Decode.cstr s.fmt) = some ws) : Right s :=
  ⟨ws, (split_sound _).1 _ h', fun vs args hc => fit_sound _ _ _ h vs args hc⟩

end Verif.C89
