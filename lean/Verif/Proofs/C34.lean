import Verif.Spec.C34
import Verif.Proofs.Bytes

namespace Verif.C34
open Data

theorem tag_toNat {t : Nat} (h : t < 256) : (tag t).toNat = t := by
  simp [tag, UInt8.toNat_ofNat', Nat.mod_eq_of_lt h]

theorem signed_small {w n : Nat} (h : 2 * n < 256 ^ w) : signed w n = n := by
  simp [signed, h]

theorem getS_small {w n : Nat} (rest : Bytes) (h : 2 * n < 256 ^ w) :
    getS w (le w n ++ rest) = .ok ((n : Int), rest) := by
  rw [getS_le rest (by omega), signed_small h]

/-- Count headers. -/
theorem read_writeCount {v0 n : Nat} (rest : Bytes) (hv : v0 + 35 < 256) (hn : n < 2147483648) :
    readCount v0 (v0 + 32) (v0 + 33) (v0 + 34) (v0 + 35)
      (writeCount v0 (v0 + 33) (v0 + 34) (v0 + 35) n ++ rest) = .ok ((n : Int), rest) := by
  unfold writeCount
  split
  · have h : (tag (v0 + n)).toNat = v0 + n := tag_toNat (by omega)
    simp only [List.cons_append, List.nil_append, readCount, h]
    rw [if_pos (by omega)]
    congr 2; omega
  · split
    · have h : (tag (v0 + 33)).toNat = v0 + 33 := tag_toNat (by omega)
      simp only [List.cons_append, readCount, h]
      rw [if_neg (by omega), if_pos trivial]
      exact getS_small rest (by omega)
    · split
      · have h : (tag (v0 + 34)).toNat = v0 + 34 := tag_toNat (by omega)
        simp only [List.cons_append, readCount, h]
        rw [if_neg (by omega), if_neg (by omega), if_pos trivial]
        exact getS_small rest (by omega)
      · have h : (tag (v0 + 35)).toNat = v0 + 35 := tag_toNat (by omega)
        simp only [List.cons_append, readCount, h]
        rw [if_neg (by omega), if_neg (by omega), if_neg (by omega), if_pos trivial]
        exact getS_small rest (by omega)

theorem writeCount_length (v0 t8 t16 t32 : Nat) {n : Nat} (hn : n < 2147483648) :
    (writeCount v0 t8 t16 t32 n).length = data_size_of n := by
  unfold writeCount data_size_of
  repeat' split
  all_goals first | omega | simp

/-- The first byte of a count header is in the range of its type. -/
theorem writeCount_head (v0 n : Nat) (hv : v0 + 35 < 256) :
    ∃ t r, writeCount v0 (v0 + 33) (v0 + 34) (v0 + 35) n = t :: r ∧
      v0 ≤ t.toNat ∧ t.toNat ≤ v0 + 35 := by
  unfold writeCount
  repeat' split
  · exact ⟨_, _, rfl, by rw [tag_toNat] <;> omega, by rw [tag_toNat] <;> omega⟩
  · exact ⟨_, _, rfl, by rw [tag_toNat] <;> omega, by rw [tag_toNat] <;> omega⟩
  · exact ⟨_, _, rfl, by rw [tag_toNat] <;> omega, by rw [tag_toNat] <;> omega⟩
  · exact ⟨_, _, rfl, by rw [tag_toNat] <;> omega, by rw [tag_toNat] <;> omega⟩

theorem read_array {n : Nat} (rest : Bytes) (hn : n < 2147483648) :
    data_read_array (data_write_array n ++ rest) = .ok ((n : Int), rest) :=
  read_writeCount (v0 := 42) rest (by omega) hn

theorem read_map {n : Nat} (rest : Bytes) (hn : n < 2147483648) :
    data_read_map (data_write_map n ++ rest) = .ok ((n : Int), rest) :=
  read_writeCount (v0 := 78) rest (by omega) hn

theorem read_raw {s : Bytes} (rest : Bytes) (hn : s.length < 2147483648) :
    data_read_raw (data_write_raw s ++ rest) = .ok (s, rest) := by
  have h := read_writeCount (v0 := 114) (s ++ rest) (by omega) hn
  simp only [Nat.reduceAdd] at h
  simp only [data_read_raw, data_write_raw, List.append_assoc]
  rw [h]
  simp only [Res.bind_ok, Int.toNat_natCast]
  rw [if_neg (by omega), if_neg (by simp)]
  simp

theorem wrapU64_cases (i : Int) (h1 : -9223372036854775808 ≤ i) (h2 : i < 9223372036854775808) :
    (0 ≤ i ∧ (wrapU64 i : Int) = i) ∨ (i < 0 ∧ (wrapU64 i : Int) = i + 18446744073709551616) := by
  unfold wrapU64; omega

theorem read_integer {i : Int} (rest : Bytes) (h1 : -9223372036854775808 ≤ i)
    (h2 : i < 9223372036854775808) :
    data_read_integer (data_write_integer (wrapU64 i) ++ rest) = .ok (i, rest) := by
  have hc := wrapU64_cases i h1 h2
  generalize wrapU64 i = n at hc ⊢
  unfold data_write_integer
  split
  · have h : (tag (5 + n)).toNat = 5 + n := tag_toNat (by omega)
    simp only [List.cons_append, List.nil_append, data_read_integer, h]
    rw [if_pos (by omega)]
    congr 2; omega
  · split
    · have h : (tag 38).toNat = 38 := tag_toNat (by omega)
      simp only [List.cons_append, data_read_integer, h]
      rw [if_neg (by omega), if_pos trivial, getS_small rest (by omega)]
      congr 2; omega
    · split
      · have h : (tag 39).toNat = 39 := tag_toNat (by omega)
        simp only [List.cons_append, data_read_integer, h]
        rw [if_neg (by omega), if_neg (by omega), if_pos trivial, getS_small rest (by omega)]
        congr 2; omega
      · split
        · have h : (tag 40).toNat = 40 := tag_toNat (by omega)
          simp only [List.cons_append, data_read_integer, h]
          rw [if_neg (by omega), if_neg (by omega), if_neg (by omega), if_pos trivial,
            getS_small rest (by omega)]
          congr 2; omega
        · have h : (tag 41).toNat = 41 := tag_toNat (by omega)
          simp only [List.cons_append, data_read_integer, h]
          rw [if_neg (by omega), if_neg (by omega), if_neg (by omega), if_neg (by omega), if_pos trivial,
            getS_le rest (by omega)]
          congr 2
          unfold signed
          split <;> omega

theorem write_integer_length (n : Nat) :
    (data_write_integer n).length = data_size_integer n := by
  unfold data_write_integer data_size_integer data_size_of
  repeat' split
  all_goals first | omega | simp

theorem write_integer_head (n : Nat) :
    ∃ t r, data_write_integer n = t :: r ∧ 5 ≤ t.toNat ∧ t.toNat ≤ 41 := by
  unfold data_write_integer
  repeat' split
  all_goals exact ⟨_, _, rfl, by rw [tag_toNat] <;> omega, by rw [tag_toNat] <;> omega⟩

theorem read_bool (b : Bool) (rest : Bytes) :
    data_read_bool (data_write_bool b ++ rest) = .ok (b, rest) := by
  cases b <;> rfl

/-! Reals -/

theorem toFloat_lt {d : Nat} (h1 : 0x3810000000000000 ≤ d) (h2 : d ≤ 0x47EFFFFFE0000000) :
    0x800000 ≤ toFloat d ∧ toFloat d ≤ 0x7f7fffff := by
  unfold toFloat
  dsimp only
  split <;> omega

theorem ofFloat_normal {f : Nat} (h1 : 0x800000 ≤ f) (h2 : f ≤ 0x7f7fffff) :
    ofFloat f = (f + 896 * 2 ^ 23) * 2 ^ 29 := by
  unfold ofFloat
  dsimp only
  rw [if_neg (by omega), if_neg (by omega)]
  omega

theorem ofFloat_toFloat {d : Nat} (h1 : 0x3810000000000000 ≤ d) (h2 : d ≤ 0x47EFFFFFE0000000) :
    (ofFloat (toFloat d) = d ↔ d % 2 ^ 29 = 0) := by
  have h := toFloat_lt h1 h2
  rw [ofFloat_normal h.1 h.2]
  unfold toFloat
  dsimp only
  split <;> omega

theorem isFloatRange_iff (d : Nat) :
    isFloatRange d = true ↔ 0x3810000000000000 ≤ d ∧ d ≤ 0x47EFFFFFE0000000 := by
  simp [isFloatRange]

theorem read_real_value {d : Nat} (rest : Bytes) (hd : d < 18446744073709551616) :
    ∃ d', data_read_real (data_write_real d ++ rest) = .ok (d', rest) ∧ (d' = d ↔ ¬ NeedsDouble d) := by
  unfold data_write_real
  split
  · rename_i h
    rw [isFloatRange_iff] at h
    have h3 : (tag 3).toNat = 3 := tag_toNat (by omega)
    have hf := toFloat_lt h.1 h.2
    refine ⟨ofFloat (toFloat d), ?_, ?_⟩
    · simp only [List.cons_append, data_read_real, h3]
      rw [if_pos trivial, getU_le rest (by omega)]
      rfl
    · rw [ofFloat_toFloat h.1 h.2]
      unfold NeedsDouble
      omega
  · rename_i h
    rw [isFloatRange_iff] at h
    have h4 : (tag 4).toNat = 4 := tag_toNat (by omega)
    refine ⟨d, ?_, ?_⟩
    · simp only [List.cons_append, data_read_real, h4]
      rw [if_neg (by omega), if_pos trivial, getU_le rest (by omega)]
    · unfold NeedsDouble
      simp only [true_iff]
      omega

theorem read_real {d : Nat} (rest : Bytes) (hd : d < 18446744073709551616) (h : ¬ NeedsDouble d) :
    data_read_real (data_write_real d ++ rest) = .ok (d, rest) := by
  obtain ⟨d', h1, h2⟩ := read_real_value rest hd
  rw [h1, h2.2 h]

theorem write_real_length (d : Nat) : (data_write_real d).length = data_size_real d := by
  unfold data_write_real data_size_real
  split <;> simp

theorem write_real_head (d : Nat) :
    ∃ t r, data_write_real d = t :: r ∧ (t.toNat = 3 ∨ t.toNat = 4) := by
  unfold data_write_real
  split
  · exact ⟨_, _, rfl, by rw [tag_toNat] <;> omega⟩
  · exact ⟨_, _, rfl, by rw [tag_toNat] <;> omega⟩

/-! Skipping -/

theorem skip_int (n : Nat) {i : Int} (rest : Bytes) (h1 : -9223372036854775808 ≤ i)
    (h2 : i < 9223372036854775808) :
    skipN (n + 1) (data_write_integer (wrapU64 i) ++ rest) = skipN n rest := by
  have h := read_integer rest h1 h2
  obtain ⟨t, r, ht, hlo, hhi⟩ := write_integer_head (wrapU64 i)
  rw [ht] at h ⊢
  rw [List.cons_append] at h ⊢
  rw [skipN]
  rw [if_neg (by omega), if_neg (by omega), if_neg (by simp [data_is_real]; omega),
    if_pos (by simp [data_is_integer]; omega)]
  split <;> simp_all

theorem skip_real (n : Nat) {d : Nat} (rest : Bytes) (hd : d < 18446744073709551616) :
    skipN (n + 1) (data_write_real d ++ rest) = skipN n rest := by
  obtain ⟨d', h, _⟩ := read_real_value rest hd
  obtain ⟨t, r, ht, hlo⟩ := write_real_head d
  rw [ht] at h ⊢
  rw [List.cons_append] at h ⊢
  rw [skipN]
  rw [if_neg (by omega), if_neg (by omega), if_pos (by simp [data_is_real]; omega)]
  split <;> simp_all

theorem read_array32 {n : Nat} (rest : Bytes) (hn : n < 2147483648) :
    data_read_array (data_write_array32 n ++ rest) = .ok ((n : Int), rest) := by
  have h : (tag 77).toNat = 77 := tag_toNat (by omega)
  simp only [data_write_array32, data_read_array, List.cons_append, readCount, h]
  rw [if_neg (by omega), if_neg (by omega), if_neg (by omega), if_pos trivial]
  exact getS_small rest (by omega)

theorem read_map32 {n : Nat} (rest : Bytes) (hn : n < 2147483648) :
    data_read_map (data_write_map32 n ++ rest) = .ok ((n : Int), rest) := by
  have h : (tag 113).toNat = 113 := tag_toNat (by omega)
  simp only [data_write_map32, data_read_map, List.cons_append, readCount, h]
  rw [if_neg (by omega), if_neg (by omega), if_neg (by omega), if_pos trivial]
  exact getS_small rest (by omega)

theorem skip_array_of (n : Nat) {c : Nat} {hd rest : Bytes} (h : data_read_array (hd ++ rest) = .ok ((c : Int), rest))
    (hh : ∃ t r, hd = t :: r ∧ 42 ≤ t.toNat ∧ t.toNat ≤ 77) :
    skipN (n + 1) (hd ++ rest) = skipN (c + n) rest := by
  obtain ⟨t, r, ht', hlo, hhi⟩ := hh
  rw [ht'] at h ⊢
  rw [List.cons_append] at h ⊢
  rw [skipN]
  rw [if_neg (by omega), if_neg (by omega), if_neg (by simp [data_is_real]; omega),
    if_neg (by simp [data_is_integer]; omega), if_pos (by simp [data_is_array]; omega)]
  split <;> simp_all

theorem skip_array (n : Nat) {c : Nat} {hd : Bytes} (rest : Bytes) (hc : c < 2147483648)
    (hh : hd = data_write_array c ∨ hd = data_write_array32 c) :
    skipN (n + 1) (hd ++ rest) = skipN (c + n) rest := by
  rcases hh with rfl | rfl
  · exact skip_array_of n (read_array rest hc) (writeCount_head 42 c (by omega))
  · exact skip_array_of n (read_array32 rest hc)
      ⟨tag 77, _, rfl, by rw [tag_toNat] <;> omega, by rw [tag_toNat] <;> omega⟩

theorem skip_map_of (n : Nat) {c : Nat} {hd rest : Bytes} (h : data_read_map (hd ++ rest) = .ok ((c : Int), rest))
    (hh : ∃ t r, hd = t :: r ∧ 78 ≤ t.toNat ∧ t.toNat ≤ 113) :
    skipN (n + 1) (hd ++ rest) = skipN (2 * c + n) rest := by
  obtain ⟨t, r, ht', hlo, hhi⟩ := hh
  rw [ht'] at h ⊢
  rw [List.cons_append] at h ⊢
  rw [skipN]
  rw [if_neg (by omega), if_neg (by omega), if_neg (by simp [data_is_real]; omega),
    if_neg (by simp [data_is_integer]; omega), if_neg (by simp [data_is_array]; omega),
    if_pos (by simp [data_is_map]; omega)]
  split <;> simp_all

theorem skip_map (n : Nat) {c : Nat} {hd : Bytes} (rest : Bytes) (hc : c < 2147483648)
    (hh : hd = data_write_map c ∨ hd = data_write_map32 c) :
    skipN (n + 1) (hd ++ rest) = skipN (2 * c + n) rest := by
  rcases hh with rfl | rfl
  · exact skip_map_of n (read_map rest hc) (writeCount_head 78 c (by omega))
  · exact skip_map_of n (read_map32 rest hc)
      ⟨tag 113, _, rfl, by rw [tag_toNat] <;> omega, by rw [tag_toNat] <;> omega⟩

theorem skip_raw (n : Nat) {s : Bytes} (rest : Bytes) (hc : s.length < 2147483648) :
    skipN (n + 1) (data_write_raw s ++ rest) = skipN n rest := by
  have h := read_raw rest hc
  obtain ⟨t, r, ht, hlo, hhi⟩ := writeCount_head 114 s.length (by omega)
  have ht' : data_write_raw s = t :: (r ++ s) := by
    have : data_write_raw s = writeCount 114 147 148 149 s.length ++ s := rfl
    rw [this]
    have ht2 : writeCount 114 147 148 149 s.length = t :: r := ht
    rw [ht2]; rfl
  rw [ht'] at h ⊢
  rw [List.cons_append] at h ⊢
  rw [skipN]
  rw [if_neg (by omega), if_neg (by omega), if_neg (by simp [data_is_real]; omega),
    if_neg (by simp [data_is_integer]; omega), if_neg (by simp [data_is_array]; omega),
    if_neg (by simp [data_is_map]; omega), if_pos (by simp [data_is_string]; omega)]
  split <;> simp_all

theorem skip_bool (n : Nat) (b : Bool) (rest : Bytes) :
    skipN (n + 1) (data_write_bool b ++ rest) = skipN n rest := by
  have h1 : (tag 1).toNat = 1 := tag_toNat (by omega)
  have h2 : (tag 2).toNat = 2 := tag_toNat (by omega)
  cases b <;> simp [data_write_bool, skipN, h1, h2]

theorem skip_null (n : Nat) (rest : Bytes) :
    skipN (n + 1) (data_write_null ++ rest) = skipN n rest := by
  have h1 : (tag 0).toNat = 0 := tag_toNat (by omega)
  simp [data_write_null, skipN, h1]

/-! Trees -/

mutual
theorem encodes_enc (v : Val) : Encodes v (enc v) := by
  cases v with
  | null | bool | int | real | str => rfl
  | arr l => exact ⟨_, _, .inl rfl, encodesAll_enc l, rfl⟩
  | map l => exact ⟨_, _, .inl rfl, encodesMap_enc l, rfl⟩
theorem encodesAll_enc (l : Vals) : EncodesAll l (encAll l) := by
  cases l with
  | nil => rfl
  | cons v l => exact ⟨_, _, encodes_enc v, encodesAll_enc l, rfl⟩
theorem encodesMap_enc (l : Maps) : EncodesMap l (encMap l) := by
  cases l with
  | nil => rfl
  | cons k v l => exact ⟨_, _, encodes_enc v, encodesMap_enc l, rfl⟩
end

section
variable {R : Nat → Prop}

mutual
theorem reads_enc (v : Val) (h : Fits R v) (bs rest : Bytes) (hR : ∀ d, R d → ¬ NeedsDouble d)
    (he : Encodes v bs) : Reads v (bs ++ rest) rest := by
  cases v with
  | null => obtain rfl := he; rfl
  | bool b => obtain rfl := he; exact read_bool b rest
  | int i => obtain rfl := he; exact read_integer rest h.1 h.2
  | real d => obtain rfl := he; exact read_real rest h.1 (hR d h.2)
  | str s => obtain rfl := he; exact read_raw rest (by simp only [Fits] at h; omega)
  | arr l =>
    obtain ⟨hd, b, hh, hb, rfl⟩ := he
    refine ⟨b ++ rest, ?_, readsAll_enc l h.2 b rest hR hb⟩
    rw [List.append_assoc]
    rcases hh with rfl | rfl
    · exact read_array _ h.1
    · exact read_array32 _ h.1
  | map l =>
    obtain ⟨hd, b, hh, hb, rfl⟩ := he
    refine ⟨b ++ rest, ?_, readsMap_enc l h.2 b rest hR hb⟩
    rw [List.append_assoc]
    rcases hh with rfl | rfl
    · exact read_map _ h.1
    · exact read_map32 _ h.1
theorem readsAll_enc (l : Vals) (h : FitsAll R l) (bs rest : Bytes) (hR : ∀ d, R d → ¬ NeedsDouble d)
    (he : EncodesAll l bs) : ReadsAll l (bs ++ rest) rest := by
  cases l with
  | nil => obtain rfl := he; rfl
  | cons v l =>
    obtain ⟨b1, b2, h1, h2, rfl⟩ := he
    refine ⟨b2 ++ rest, ?_, readsAll_enc l h.2 b2 rest hR h2⟩
    rw [List.append_assoc]
    exact reads_enc v h.1 b1 _ hR h1
theorem readsMap_enc (l : Maps) (h : FitsMap R l) (bs rest : Bytes) (hR : ∀ d, R d → ¬ NeedsDouble d)
    (he : EncodesMap l bs) : ReadsMap l (bs ++ rest) rest := by
  cases l with
  | nil => obtain rfl := he; rfl
  | cons k v l =>
    obtain ⟨b1, b2, h1, h2, rfl⟩ := he
    refine ⟨b1 ++ (b2 ++ rest), b2 ++ rest, ?_, reads_enc v h.2.1 b1 _ hR h1,
      readsMap_enc l h.2.2 b2 rest hR h2⟩
    simp only [List.append_assoc]
    exact read_raw _ (by have := h.1; omega)
end

mutual
theorem skip_enc (v : Val) (h : Fits R v) (n : Nat) (bs rest : Bytes) (he : Encodes v bs) :
    skipN (n + 1) (bs ++ rest) = skipN n rest := by
  cases v with
  | null => obtain rfl := he; exact skip_null n rest
  | bool b => obtain rfl := he; exact skip_bool n b rest
  | int i => obtain rfl := he; exact skip_int n rest h.1 h.2
  | real d => obtain rfl := he; exact skip_real n rest h.1
  | str s => obtain rfl := he; exact skip_raw n rest (by simp only [Fits] at h; omega)
  | arr l =>
    obtain ⟨hd, b, hh, hb, rfl⟩ := he
    rw [List.append_assoc, skip_array n _ h.1 hh]
    exact skipAll_enc l h.2 n b rest hb
  | map l =>
    obtain ⟨hd, b, hh, hb, rfl⟩ := he
    rw [List.append_assoc, skip_map n _ h.1 hh]
    exact skipMap_enc l h.2 n b rest hb
theorem skipAll_enc (l : Vals) (h : FitsAll R l) (n : Nat) (bs rest : Bytes) (he : EncodesAll l bs) :
    skipN (l.len + n) (bs ++ rest) = skipN n rest := by
  cases l with
  | nil => obtain rfl := he; simp [Vals.len]
  | cons v l =>
    obtain ⟨b1, b2, h1, h2, rfl⟩ := he
    have : (Vals.cons v l).len + n = (l.len + n) + 1 := by simp [Vals.len]; omega
    rw [this, List.append_assoc, skip_enc v h.1 _ b1 _ h1]
    exact skipAll_enc l h.2 n b2 rest h2
theorem skipMap_enc (l : Maps) (h : FitsMap R l) (n : Nat) (bs rest : Bytes) (he : EncodesMap l bs) :
    skipN (2 * l.len + n) (bs ++ rest) = skipN n rest := by
  cases l with
  | nil => obtain rfl := he; simp [Maps.len]
  | cons k v l =>
    obtain ⟨b1, b2, h1, h2, rfl⟩ := he
    have : 2 * (Maps.cons k v l).len + n = ((2 * l.len + n) + 1) + 1 := by simp [Maps.len]; omega
    simp only [List.append_assoc]
    have hk := h.1
    rw [this, skip_raw _ _ (by omega), skip_enc v h.2.1 _ b1 _ h1]
    exact skipMap_enc l h.2.2 n b2 rest h2
end

theorem data_skip_enc (v : Val) (h : Fits R v) (bs rest : Bytes) (he : Encodes v bs) :
    data_skip (bs ++ rest) = .ok rest := by
  unfold data_skip; rw [skip_enc v h 0 bs rest he]; rw [skipN]

mutual
theorem enc_length (v : Val) (h : Fits R v) : (enc v).length = reserved v := by
  cases v with
  | null => rfl
  | bool b => rfl
  | int i => exact write_integer_length _
  | real d => exact write_real_length d
  | str s =>
    simp only [Fits] at h
    simp only [enc, reserved, data_write_raw, List.length_append, data_size_string]
    rw [writeCount_length _ _ _ _ (by omega)]
  | arr l =>
    simp only [enc, reserved, List.length_append, data_write_array, data_size_array]
    rw [writeCount_length _ _ _ _ h.1, encAll_length l h.2]
  | map l =>
    simp only [enc, reserved, List.length_append, data_write_map, data_size_map]
    rw [writeCount_length _ _ _ _ h.1, encMap_length l h.2]
theorem encAll_length (l : Vals) (h : FitsAll R l) : (encAll l).length = reservedAll l := by
  cases l with
  | nil => rfl
  | cons v l =>
    simp only [encAll, reservedAll, List.length_append]
    rw [enc_length v h.1, encAll_length l h.2]
theorem encMap_length (l : Maps) (h : FitsMap R l) : (encMap l).length = reservedMap l := by
  cases l with
  | nil => rfl
  | cons k v l =>
    have hk := h.1
    simp only [encMap, reservedMap, List.length_append, data_write_raw, data_size_string]
    rw [writeCount_length _ _ _ _ (by omega), enc_length v h.2.1, encMap_length l h.2.2]
end
end

theorem roundTrip {R : Nat → Prop} (hR : ∀ d, R d → ¬ NeedsDouble d) (v : Val) (h : Fits R v) :
    RoundTrip v :=
  ⟨encodes_enc v, enc_length v h, fun bs rest he =>
    ⟨reads_enc v h bs rest hR he, data_skip_enc v h bs rest he⟩⟩

end Verif.C34
