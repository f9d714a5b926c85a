import Verif.Spec.C68
import Verif.Proofs.Orbit

/-! Lemmas for C68. -/
namespace Verif.C68
open Random

/-- The state as a number of 128 bits. -/
def pack (a b : UInt64) : Nat := a.toNat ^^^ (b.toNat <<< 64)

theorem pack_lo (a b : UInt64) : pack a b % 2 ^ 64 = a.toNat := by
  unfold pack
  rw [Nat.xor_mod_two_pow, Nat.shiftLeft_eq, Nat.mul_mod_left, Nat.xor_zero, Nat.mod_eq_of_lt a.toNat_lt]

theorem pack_hi (a b : UInt64) : pack a b >>> 64 = b.toNat := by
  unfold pack
  have : a.toNat >>> 64 = 0 := by rw [Nat.shiftRight_eq_div_pow, Nat.div_eq_of_lt a.toNat_lt]
  rw [Nat.shiftRight_xor_distrib, this, Nat.zero_xor, Nat.shiftLeft_shiftRight]

theorem pack_lt (a b : UInt64) : pack a b < 2 ^ 128 := by
  have h1 := a.toNat_lt
  have h2 := b.toNat_lt
  unfold pack
  refine Nat.xor_lt_two_pow (by omega) ?_
  rw [Nat.shiftLeft_eq]; omega

theorem pack_inj {a b c d : UInt64} (h : pack a b = pack c d) : a = c ∧ b = d := by
  have h1 := pack_lo a b
  have h2 := pack_hi a b
  rw [h, pack_lo] at h1
  rw [h, pack_hi] at h2
  exact ⟨UInt64.toNat_inj.1 h1.symm, UInt64.toNat_inj.1 h2.symm⟩

theorem pack_zero {a b : UInt64} : pack a b = 0 ↔ a = 0 ∧ b = 0 := by
  constructor
  · intro h
    have : pack a b = pack 0 0 := by rw [h]; decide
    exact pack_inj this
  · rintro ⟨rfl, rfl⟩; decide

theorem pack_step (a b : UInt64) :
    pack b ((a ^^^ (a <<< 23)) ^^^ b ^^^ ((a ^^^ (a <<< 23)) >>> 17) ^^^ (b >>> 26)) = T (pack a b) := by
  unfold T
  dsimp only
  rw [pack_lo, pack_hi]
  unfold pack
  simp only [UInt64.toNat_xor, UInt64.toNat_shiftRight, UInt64.toNat_shiftLeft]
  rfl

theorem word_pack (s0 s1 : UInt64) : ∀ n, pack (word s0 s1 n) (word s0 s1 (n + 1)) = it n (pack s0 s1)
  | 0 => rfl
  | n + 1 => by
    show _ = T (it n (pack s0 s1))
    rw [← word_pack s0 s1 n, ← pack_step]
    rw [word]

theorem repeats {s0 s1 : UInt64} (h : ¬ (s0 = 0 ∧ s1 = 0)) : Repeats s0 s1 := by
  intro i j
  have h0 : pack s0 s1 ≠ 0 := fun e => h (pack_zero.1 e)
  show _ ↔ i % N = j % N
  rw [← it_eq_iff h0 (pack_lt s0 s1), ← word_pack, ← word_pack]
  constructor
  · rintro ⟨h1, h2⟩; rw [h1, h2]
  · exact pack_inj

/-- Every pair of words but zeroes comes in each cycle. -/
theorem comes {s0 s1 : UInt64} (h : ¬ (s0 = 0 ∧ s1 = 0)) (first : Nat) {a b : UInt64} (hab : ¬ (a = 0 ∧ b = 0)) :
    ∃ k, first ≤ k ∧ k < first + Cycle ∧ word s0 s1 k = a ∧ word s0 s1 (k + 1) = b := by
  have h0 : pack s0 s1 ≠ 0 := fun e => h (pack_zero.1 e)
  obtain ⟨k, hk, e⟩ := reach (it_ne_zero h0 (pack_lt s0 s1) first) (it_lt (pack_lt s0 s1) first)
    (fun e => hab (pack_zero.1 e)) (pack_lt a b)
  rw [← it_add, ← word_pack] at e
  exact ⟨first + k, by omega, by have : Cycle = N := by decide
                                 omega, (pack_inj e).1, (pack_inj e).2⟩

/-- All words of 64 bits. -/
theorem all_words : ∃ l : List UInt64, l.Nodup ∧ l.length = 2 ^ 64 ∧ ∀ a, a ∈ l := by
  have : ∀ n, n = 2 ^ 64 → ∃ l : List UInt64, l.Nodup ∧ l.length = n ∧ ∀ a, a ∈ l := by
    intro n hn
    refine ⟨(List.range n).map UInt64.ofNat, ?_, by simp, ?_⟩
    · refine List.Nodup.map_on ?_ List.nodup_range
      intro x hx y hy e
      have hx := List.mem_range.1 hx
      have hy := List.mem_range.1 hy
      have e := congrArg UInt64.toNat e
      rw [UInt64.toNat_ofNat', UInt64.toNat_ofNat'] at e
      omega
    · intro a
      refine List.mem_map.2 ⟨a.toNat, List.mem_range.2 (by have := a.toNat_lt; omega), by simp⟩
  exact this _ rfl

theorem some_words (v : UInt64) : ∃ l : List UInt64, l.Nodup ∧ l.length = (if v = 0 then 2 ^ 64 - 1 else 2 ^ 64) ∧
    ∀ a, a ∈ l ↔ (v = 0 → a ≠ 0) := by
  obtain ⟨l, hn, hl, ha⟩ := all_words
  by_cases hv : v = 0
  · refine ⟨l.erase 0, hn.erase 0, ?_, ?_⟩
    · rw [List.length_erase_of_mem (ha 0), hl, if_pos hv]
    · intro a; rw [hn.mem_erase_iff]; simp [ha a, hv]
  · exact ⟨l, hn, by rw [hl, if_neg hv], fun a => by simp [ha a, hv]⟩

theorem even {s0 s1 : UInt64} (h : ¬ (s0 = 0 ∧ s1 = 0)) : Even s0 s1 := by
  intro v first
  have hrep := repeats h
  -- the place of a pair whose sum is the number
  have hex : ∀ a : UInt64, ∃ k, (v = 0 → a ≠ 0) → first ≤ k ∧ k < first + Cycle ∧ word s0 s1 (k + 1) = a ∧ word s0 s1 (k + 2) = v - a := by
    intro a
    by_cases hc : v = 0 → a ≠ 0
    · obtain ⟨k, h1, h2, h3, h4⟩ := comes h (first + 1) (a := a) (b := v - a) (by
        rintro ⟨rfl, h2⟩
        have : v = 0 := by simpa using h2
        exact hc this rfl)
      obtain ⟨k, rfl⟩ : ∃ j, k = j + 1 := ⟨k - 1, by omega⟩
      exact ⟨k, fun _ => ⟨by omega, by omega, h3, h4⟩⟩
    · exact ⟨0, fun h => absurd h hc⟩
  choose g hg using hex
  obtain ⟨l, hn, hl, hm⟩ := some_words v
  refine ⟨l.map g, ?_, by rw [List.length_map, hl], ?_⟩
  · refine List.Nodup.map_on ?_ hn
    intro x hx y hy e
    have h1 := (hg x ((hm x).1 hx)).2.2.1
    have h2 := (hg y ((hm y).1 hy)).2.2.1
    rw [← h1, ← h2, e]
  · intro k
    rw [List.mem_map]
    constructor
    · rintro ⟨a, ha, rfl⟩
      obtain ⟨h1, h2, h3, h4⟩ := hg a ((hm a).1 ha)
      refine ⟨h1, h2, ?_⟩
      show word s0 s1 (g a + 1) + word s0 s1 (g a + 2) = v
      rw [h3, h4, UInt64.add_comm, UInt64.sub_add_cancel]
    · rintro ⟨h1, h2, h3⟩
      have h3 : word s0 s1 (k + 1) + word s0 s1 (k + 2) = v := h3
      have hw : word s0 s1 (k + 2) = v - word s0 s1 (k + 1) := by
        rw [← h3, UInt64.add_comm, UInt64.add_sub_cancel]
      have hc : v = 0 → word s0 s1 (k + 1) ≠ 0 := by
        intro hv he
        rw [hv, he] at hw
        have h0 : pack s0 s1 ≠ 0 := fun e => h (pack_zero.1 e)
        refine it_ne_zero h0 (pack_lt s0 s1) (k + 1) ?_
        rw [← word_pack, pack_zero]
        exact ⟨he, by simpa using hw⟩
      refine ⟨_, (hm _).2 hc, ?_⟩
      obtain ⟨g1, g2, g3, g4⟩ := hg _ hc
      have hr := (hrep (g (word s0 s1 (k + 1)) + 1) (k + 1)).1 ⟨g3, by rw [g4, hw]⟩
      generalize g (word s0 s1 (k + 1)) = m at g1 g2 hr
      have hC : Cycle = 340282366920938463463374607431768211455 := by decide
      rw [hC] at g2 h2 hr
      omega

/-! ## The model draws the sequence -/

theorem draws (s0 s1 : UInt64) : ∀ n, draw n ⟨s0, s1⟩ = (⟨word s0 s1 n, word s0 s1 (n + 1)⟩, (List.range n).map (number s0 s1))
  | 0 => rfl
  | n + 1 => by
    rw [draw, draws s0 s1 n, List.range_succ, List.map_append]
    simp only [random_generate, List.map_cons, List.map_nil, number]
    rw [word, UInt64.add_comm]

theorem isalnum_iff (c : UInt8) : isalnum c = true ↔ IsAlnum c := by
  have h0 : '0'.toNat = 48 := by decide
  have h1 : 'A'.toNat = 65 := by decide
  have h2 : 'a'.toNat = 97 := by decide
  unfold isalnum IsAlnum
  rw [h0, h1, h2]
  simp only [Bool.or_eq_true, Bool.and_eq_true, decide_eq_true_eq, UInt8.le_iff_toNat_le]
  simp only [show (48 : UInt8).toNat = 48 by decide, show (57 : UInt8).toNat = 57 by decide, show (65 : UInt8).toNat = 65 by decide,
    show (90 : UInt8).toNat = 90 by decide, show (97 : UInt8).toNat = 97 by decide, show (122 : UInt8).toNat = 122 by decide]
  constructor
  · rintro ((⟨a, b⟩ | ⟨a, b⟩) | ⟨a, b⟩)
    · exact .inl ⟨c.toNat - 48, by omega, by omega⟩
    · exact .inr (.inl ⟨c.toNat - 65, by omega, by omega⟩)
    · exact .inr (.inr ⟨c.toNat - 97, by omega, by omega⟩)
  · rintro (⟨i, a, b⟩ | ⟨i, a, b⟩ | ⟨i, a, b⟩)
    · exact .inl (.inl ⟨by omega, by omega⟩)
    · exact .inl (.inr ⟨by omega, by omega⟩)
    · exact .inr ⟨by omega, by omega⟩

theorem filter_eq (l : Bytes) : (open Classical in l.filter fun c => decide (IsAlnum c)) = l.filter isalnum := by
  congr 1
  funext c
  rw [Bool.eq_iff_iff, isalnum_iff]
  simp

/-- Letters and digits of the `n`-th number. -/
theorem letters_succ (s0 s1 : UInt64) (n : Nat) :
    letters s0 s1 (n + 1) = letters s0 s1 n ++ (le 8 (number s0 s1 n).toNat).filter isalnum := by
  unfold letters
  rw [filter_eq, filter_eq, ← List.filter_append]
  congr 1
  unfold stream
  rw [show 8 * (n + 1) = 8 * n + 8 by omega, List.range_add, List.map_append]
  congr 1
  rw [List.map_map]
  have e : ∀ i, i < 8 → ((fun k => byteOf (number s0 s1 (k / 8)) (k % 8)) ∘ fun x => 8 * n + x) i = byteOf (number s0 s1 n) i := by
    intro i hi
    show byteOf (number s0 s1 ((8 * n + i) / 8)) ((8 * n + i) % 8) = _
    rw [show (8 * n + i) / 8 = n by omega, show (8 * n + i) % 8 = i by omega]
  rw [show List.range 8 = [0, 1, 2, 3, 4, 5, 6, 7] by decide]
  simp only [List.map_cons, List.map_nil]
  rw [e 0 (by omega), e 1 (by omega), e 2 (by omega), e 3 (by omega), e 4 (by omega), e 5 (by omega), e 6 (by omega), e 7 (by omega)]
  simp only [le, byteOf, Nat.div_div_eq_div_mul]
  norm_num

theorem letters_zero (s0 s1 : UInt64) : letters s0 s1 0 = [] := by simp [letters, stream]

theorem letters_mono (s0 s1 : UInt64) (m : Nat) : ∀ d, (letters s0 s1 m).length ≤ (letters s0 s1 (m + d)).length
  | 0 => Nat.le_refl _
  | d + 1 => by
    have := letters_mono s0 s1 m d
    rw [← Nat.add_assoc, letters_succ, List.length_append]
    omega

theorem letters_alnum (s0 s1 : UInt64) (n : Nat) : ∀ c ∈ letters s0 s1 n, IsAlnum c := by
  intro c hc
  unfold letters at hc
  simpa using (List.mem_filter.1 hc).2

/-! ## Letters and digits without end -/

/-- There is an `A` in each cycle. -/
theorem more {s0 s1 : UInt64} (h : ¬ (s0 = 0 ∧ s1 = 0)) (m : Nat) : ∃ d, (letters s0 s1 m).length < (letters s0 s1 (m + d)).length := by
  obtain ⟨k, h1, _, h3, h4⟩ := comes h (m + 1) (a := 0) (b := 65) (by decide)
  obtain ⟨k, rfl⟩ : ∃ j, k = m + j + 1 := ⟨k - m - 1, by omega⟩
  refine ⟨k + 1, ?_⟩
  have hnum : number s0 s1 (m + k) = 65 := by
    show word s0 s1 (m + k + 1) + word s0 s1 (m + k + 1 + 1) = 65
    rw [h3, h4]; decide
  rw [← Nat.add_assoc, letters_succ, hnum, List.length_append]
  have := letters_mono s0 s1 m k
  have h8 : ((le 8 (65 : UInt64).toNat).filter isalnum).length = 1 := by decide
  omega

theorem enough {s0 s1 : UInt64} (h : ¬ (s0 = 0 ∧ s1 = 0)) : ∀ size, ∃ n, size ≤ (letters s0 s1 n).length
  | 0 => ⟨0, Nat.zero_le _⟩
  | size + 1 => by
    obtain ⟨n, hn⟩ := enough h size
    obtain ⟨d, hd⟩ := more h n
    exact ⟨n + d, by omega⟩

/-- The least number of draws. -/
theorem least {s0 s1 : UInt64} (h : ¬ (s0 = 0 ∧ s1 = 0)) (size : Nat) :
    ∃ n, size ≤ (letters s0 s1 n).length ∧ ∀ m, m < n → (letters s0 s1 m).length < size := by
  classical
  have hex := enough h size
  exact ⟨Nat.find hex, Nat.find_spec hex, fun m hm => by have := Nat.find_min hex hm; omega⟩

/-! ## The loops -/

theorem loop_short {cap size : Nat} (hc : size ≤ cap) : ∀ (l data : Bytes), (data ++ l.filter isalnum).length < size →
    alnum_loop cap size l data = .ok (data ++ l.filter isalnum, false)
  | [], data, _ => by simp [alnum_loop]
  | c :: l, data, h => by
    unfold alnum_loop
    by_cases hx : isalnum c = true
    · rw [List.filter_cons_of_pos hx] at h ⊢
      simp only [List.length_append, List.length_cons] at h
      rw [if_neg (by simp [hx]), if_pos (by omega)]
      dsimp only
      rw [if_neg (by simp only [List.length_append, List.length_cons, List.length_nil]; omega)]
      rw [loop_short hc l (data ++ [c]) (by simp only [List.length_append, List.length_cons, List.length_nil]; omega)]
      simp
    · rw [List.filter_cons_of_neg hx] at h ⊢
      rw [if_pos (by simpa using hx)]
      exact loop_short hc l data h

theorem loop_full {cap size : Nat} (hc : size ≤ cap) : ∀ (l data : Bytes), data.length < size → size ≤ (data ++ l.filter isalnum).length →
    alnum_loop cap size l data = .ok ((data ++ l.filter isalnum).take size, true)
  | [], data, h, h' => by simp at h'; omega
  | c :: l, data, h, h' => by
    unfold alnum_loop
    by_cases hx : isalnum c = true
    · rw [List.filter_cons_of_pos hx] at h' ⊢
      rw [if_neg (by simp [hx]), if_pos (by omega)]
      dsimp only
      by_cases he : data.length + 1 = size
      · rw [if_pos (by simp only [List.length_append, List.length_cons, List.length_nil]; omega)]
        have : (data ++ c :: l.filter isalnum).take size = data ++ [c] := by
          rw [show data ++ c :: l.filter isalnum = (data ++ [c]) ++ l.filter isalnum by simp, List.take_left' (by simp; omega)]
        rw [this]
      · rw [if_neg (by simp only [List.length_append, List.length_cons, List.length_nil]; omega)]
        rw [loop_full hc l (data ++ [c]) (by simp only [List.length_append, List.length_cons, List.length_nil]; omega)
          (by simp only [List.length_append, List.length_cons] at h' ⊢; omega)]
        simp
    · rw [List.filter_cons_of_neg hx] at h' ⊢
      rw [if_pos (by simpa using hx)]
      exact loop_full hc l data h h'

theorem generate_word (s0 s1 : UInt64) (m : Nat) :
    random_generate ⟨word s0 s1 m, word s0 s1 (m + 1)⟩ = (⟨word s0 s1 (m + 1), word s0 s1 (m + 1 + 1)⟩, number s0 s1 m) := by
  simp only [random_generate, number]
  rw [word, UInt64.add_comm]

theorem alnum_run {s0 s1 : UInt64} {cap size n : Nat} (hc : size ≤ cap) (hn : size ≤ (letters s0 s1 n).length)
    (hl : ∀ m, m < n → (letters s0 s1 m).length < size) : ∀ d m fuel, m + d = n → 0 < d → d ≤ fuel →
    alnum_from cap size fuel ⟨word s0 s1 m, word s0 s1 (m + 1)⟩ (letters s0 s1 m)
      = .ok (⟨word s0 s1 n, word s0 s1 (n + 1)⟩, (letters s0 s1 n).take size)
  | 0, _, _, _, h, _ => absurd h (by omega)
  | d + 1, m, 0, _, _, h => absurd h (by omega)
  | d + 1, m, fuel + 1, hm, _, hf => by
    rw [alnum_from, generate_word]
    dsimp only
    by_cases hd : d = 0
    · have : n = m + 1 := by omega
      subst this
      rw [letters_succ] at hn ⊢
      rw [loop_full hc _ _ (hl m (by omega)) hn]
      rfl
    · have h1 := hl (m + 1) (by omega)
      rw [letters_succ] at h1
      rw [loop_short hc _ _ h1, ← letters_succ]
      show alnum_from cap size fuel _ _ = _
      exact alnum_run hc hn hl d (m + 1) fuel (by omega) (by omega) (by omega)

theorem alnum_ends {s0 s1 : UInt64} (h : ¬ (s0 = 0 ∧ s1 = 0)) (cap size : Nat) (h1 : 1 ≤ size) (hc : size ≤ cap) :
    ∃ n data, FirstLetters s0 s1 size n data ∧
      ∀ fuel, n ≤ fuel → random_generate_alnum fuel ⟨s0, s1⟩ cap size = .ok (⟨word s0 s1 n, word s0 s1 (n + 1)⟩, data) := by
  obtain ⟨n, hn, hl⟩ := least h size
  have hpos : 0 < n := by
    rcases Nat.eq_zero_or_pos n with h0 | h0
    · rw [h0, letters_zero] at hn; simp at hn; omega
    · exact h0
  refine ⟨n, (letters s0 s1 n).take size, ⟨?_, ?_, rfl, hl⟩, ?_⟩
  · rw [List.length_take]; omega
  · intro c hx; exact letters_alnum s0 s1 n c (List.mem_of_mem_take hx)
  · intro fuel hf
    have := alnum_run hc hn hl n 0 fuel (by omega) hpos hf
    rw [letters_zero] at this
    exact this

/-! ## What goes wrong -/

theorem zero_from (cap : Nat) (size : Int) (data : Bytes) : ∀ fuel, alnum_from cap size fuel ⟨0, 0⟩ data = .abort "does not end"
  | 0 => rfl
  | fuel + 1 => by
    rw [alnum_from, show random_generate ⟨0, 0⟩ = (⟨0, 0⟩, 0) by decide]
    dsimp only
    have : alnum_loop cap size (le 8 (0 : UInt64).toNat) data = .ok (data, false) := by
      rw [show le 8 (0 : UInt64).toNat = [0, 0, 0, 0, 0, 0, 0, 0] by decide]
      simp [alnum_loop, show isalnum 0 = false by decide]
    rw [this]
    exact zero_from cap size data fuel

theorem loop_over {cap : Nat} {size : Int} (hs : size < 1 ∨ (cap : Int) < size) : ∀ (l data : Bytes), data.length ≤ cap →
    alnum_loop cap size l data = if cap < (data ++ l.filter isalnum).length then .ub "write past the end of the array"
      else .ok (data ++ l.filter isalnum, false)
  | [], data, h => by rw [if_neg (by simpa using h)]; simp [alnum_loop]
  | c :: l, data, h => by
    unfold alnum_loop
    by_cases hx : isalnum c = true
    · rw [List.filter_cons_of_pos hx, if_neg (by simp [hx])]
      by_cases hd : data.length < cap
      · rw [if_pos hd]
        dsimp only
        rw [if_neg (by simp only [List.length_append, List.length_cons, List.length_nil]; omega)]
        rw [loop_over hs l (data ++ [c]) (by simp only [List.length_append, List.length_cons, List.length_nil]; omega)]
        simp
      · rw [if_neg hd, if_pos (by simp only [List.length_append, List.length_cons]; omega)]
    · rw [List.filter_cons_of_neg hx, if_pos (by simpa using hx)]
      exact loop_over hs l data h

theorem over_run {s0 s1 : UInt64} {cap : Nat} {size : Int} {n : Nat} (hs : size < 1 ∨ (cap : Int) < size)
    (hn : cap < (letters s0 s1 n).length) : ∀ d m fuel, m + d = n → (letters s0 s1 m).length ≤ cap → d ≤ fuel →
    alnum_from cap size fuel ⟨word s0 s1 m, word s0 s1 (m + 1)⟩ (letters s0 s1 m) = .ub "write past the end of the array"
  | 0, m, _, h, h', _ => by have : n = m := by omega
                            subst this; omega
  | d + 1, m, 0, _, _, h => absurd h (by omega)
  | d + 1, m, fuel + 1, hm, hm', hf => by
    rw [alnum_from, generate_word]
    dsimp only
    rw [loop_over hs _ _ hm', ← letters_succ]
    by_cases hlt : cap < (letters s0 s1 (m + 1)).length
    · rw [if_pos hlt]; rfl
    · rw [if_neg hlt]
      show alnum_from cap size fuel _ _ = _
      exact over_run hs hn d (m + 1) fuel (by omega) (by omega) (by omega)

end Verif.C68
