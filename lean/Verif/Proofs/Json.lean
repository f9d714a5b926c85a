import Verif.Spec.C35
import Verif.Proofs.C34

/-! The text written for a value is read back as that value (used by C35). -/
namespace Verif
namespace Json
open Data C34 C35

theorem depth_pos (v : Val) : 0 < depth v := by cases v <;> simp [depth]

mutual
/-- The text of a value. -/
def text (pretty : Bool) (deep : Nat) : Val → Bytes
  | .null => [110, 117, 108, 108]
  | .bool b => if b then [116, 114, 117, 101] else [102, 97, 108, 115, 101]
  | .int i => decimal i
  | .real _ => []
  | .str s => [34] ++ s ++ [34]
  | .arr l => [91] ++ textAll pretty deep l ++ [93]
  | .map l => (if pretty then [123, 10] else [123]) ++ textMap pretty deep l ++ (if pretty then indent deep else []) ++ [125]
def textAll (pretty : Bool) (deep : Nat) : Vals → Bytes
  | .nil => []
  | .cons v l => text pretty deep v ++ (if l.len > 0 then [44, 32] else []) ++ textAll pretty deep l
def textMap (pretty : Bool) (deep : Nat) : Maps → Bytes
  | .nil => []
  | .cons k v l => (if pretty then indent (deep + 1) else []) ++ ([34] ++ k ++ [34]) ++ [58, 32] ++
      text pretty (deep + 1) v ++
      (if pretty then (if l.len > 0 then [44, 10] else [10]) else (if l.len > 0 then [44, 32] else [])) ++
      textMap pretty deep l
end

mutual
/-- The encoding the reader makes. -/
def enc32 : Val → Bytes
  | .null => data_write_null
  | .bool b => data_write_bool b
  | .int i => data_write_integer (wrapU64 i)
  | .real d => data_write_real d
  | .str s => data_write_raw s
  | .arr l => data_write_array32 l.len ++ encAll32 l
  | .map l => data_write_map32 l.len ++ encMap32 l
def encAll32 : Vals → Bytes
  | .nil => []
  | .cons v l => enc32 v ++ encAll32 l
def encMap32 : Maps → Bytes
  | .nil => []
  | .cons k v l => data_write_raw k ++ enc32 v ++ encMap32 l
end

mutual
theorem encodes_enc32 (v : Val) : Encodes v (enc32 v) := by
  cases v with
  | arr l => exact ⟨_, _, .inr rfl, encodesAll_enc32 l, rfl⟩
  | map l => exact ⟨_, _, .inr rfl, encodesMap_enc32 l, rfl⟩
  | _ => simp [Encodes, enc32]
theorem encodesAll_enc32 (l : Vals) : EncodesAll l (encAll32 l) := by
  cases l with
  | nil => rfl
  | cons v l => exact ⟨_, _, encodes_enc32 v, encodesAll_enc32 l, rfl⟩
theorem encodesMap_enc32 (l : Maps) : EncodesMap l (encMap32 l) := by
  cases l with
  | nil => rfl
  | cons k v l => exact ⟨_, _, encodes_enc32 v, encodesMap_enc32 l, by simp [encMap32]⟩
end

/-! Writing. -/
section
variable (fmt : Nat → Bytes) (pretty : Bool)

theorem export_str {d : Nat} (deep : Nat) {s : Bytes} (rest : Bytes) (hs : s.length + 5 < 2147483648) :
    exportAs fmt pretty (d + 1) deep (data_write_raw s ++ rest) = .ok ([34] ++ s ++ [34], rest) := by
  have hr := read_raw (s := s) rest (by omega)
  obtain ⟨t, tl, he, h1, h2⟩ : ∃ t tl, data_write_raw s ++ rest = t :: tl ∧ 114 ≤ t.toNat ∧ t.toNat ≤ 149 := by
    obtain ⟨t, tl, h, h1, h2⟩ := writeCount_head 114 s.length (by omega)
    exact ⟨t, tl ++ s ++ rest, by simp [data_write_raw, h], by omega, by omega⟩
  rw [he] at hr ⊢
  simp only [exportAs]
  rw [if_neg (by omega), if_neg (by simp [data_is_bool]; omega), if_neg (by simp [data_is_real]; omega),
    if_neg (by simp [data_is_integer]; omega), if_pos (by simp [data_is_string]; omega), hr]
  rfl

theorem export_arr {d : Nat} (deep : Nat) {n : Nat} {h : Bytes} (rest : Bytes) (hn : n < 2147483648)
    (hh : h = data_write_array n ∨ h = data_write_array32 n) :
    exportAs fmt pretty (d + 1) deep (h ++ rest) =
      (exportAll (exportAs fmt pretty d deep) n rest).bind fun (u, r) => .ok ([91] ++ u ++ [93], r) := by
  have hr : data_read_array (h ++ rest) = .ok ((n : Int), rest) := by
    rcases hh with rfl | rfl
    · exact read_array rest hn
    · exact read_array32 rest hn
  obtain ⟨t, tl, he, h1, h2⟩ : ∃ t tl, h ++ rest = t :: tl ∧ 42 ≤ t.toNat ∧ t.toNat ≤ 77 := by
    rcases hh with rfl | rfl
    · obtain ⟨t, tl, h, h1, h2⟩ := writeCount_head 42 n (by omega)
      exact ⟨t, tl ++ rest, by simp [data_write_array, h], by omega, by omega⟩
    · exact ⟨_, _, rfl, by rw [tag_toNat] <;> omega, by rw [tag_toNat] <;> omega⟩
  rw [he] at hr ⊢
  simp only [exportAs]
  rw [if_neg (by omega), if_neg (by simp [data_is_bool]; omega), if_neg (by simp [data_is_real]; omega),
    if_neg (by simp [data_is_integer]; omega), if_neg (by simp [data_is_string]; omega),
    if_pos (by simp [data_is_array]; omega), hr]
  rfl

theorem export_map {d : Nat} (deep : Nat) {n : Nat} {h : Bytes} (rest : Bytes) (hn : n < 2147483648)
    (hh : h = data_write_map n ∨ h = data_write_map32 n) :
    exportAs fmt pretty (d + 1) deep (h ++ rest) =
      (exportEntries (exportAs fmt pretty d (deep + 1)) pretty deep n rest).bind fun (u, r) =>
        .ok ((if pretty then [123, 10] else [123]) ++ u ++ (if pretty then indent deep else []) ++ [125], r) := by
  have hr : data_read_map (h ++ rest) = .ok ((n : Int), rest) := by
    rcases hh with rfl | rfl
    · exact read_map rest hn
    · exact read_map32 rest hn
  obtain ⟨t, tl, he, h1, h2⟩ : ∃ t tl, h ++ rest = t :: tl ∧ 78 ≤ t.toNat ∧ t.toNat ≤ 113 := by
    rcases hh with rfl | rfl
    · obtain ⟨t, tl, h, h1, h2⟩ := writeCount_head 78 n (by omega)
      exact ⟨t, tl ++ rest, by simp [data_write_map, h], by omega, by omega⟩
    · exact ⟨_, _, rfl, by rw [tag_toNat] <;> omega, by rw [tag_toNat] <;> omega⟩
  rw [he] at hr ⊢
  simp only [exportAs]
  rw [if_neg (by omega), if_neg (by simp [data_is_bool]; omega), if_neg (by simp [data_is_real]; omega),
    if_neg (by simp [data_is_integer]; omega), if_neg (by simp [data_is_string]; omega),
    if_neg (by simp [data_is_array]; omega), if_pos (by simp [data_is_map]; omega), hr]
  rfl

theorem export_int {d : Nat} (deep : Nat) {i : Int} (rest : Bytes) (h1 : -9223372036854775808 ≤ i)
    (h2 : i < 9223372036854775808) :
    exportAs fmt pretty (d + 1) deep (data_write_integer (wrapU64 i) ++ rest) = .ok (decimal i, rest) := by
  have hr := read_integer rest h1 h2
  obtain ⟨t, tl, he, h1, h2⟩ := write_integer_head (wrapU64 i)
  rw [he] at hr ⊢
  rw [List.cons_append] at hr ⊢
  simp only [exportAs]
  rw [if_neg (by omega), if_neg (by simp [data_is_bool]; omega), if_neg (by simp [data_is_real]; omega),
    if_pos (by simp [data_is_integer]; omega), hr]
  rfl

mutual
/-- The values that have a text: no reals, 64-bit integers, any strings. -/
def Writable : Val → Prop
  | .null => True
  | .bool _ => True
  | .int i => -9223372036854775808 ≤ i ∧ i < 9223372036854775808
  | .real _ => False
  | .str s => s.length + 5 < 2147483648
  | .arr l => l.len < 2147483648 ∧ WritableAll l
  | .map l => l.len < 2147483648 ∧ WritableMap l
def WritableAll : Vals → Prop
  | .nil => True
  | .cons v l => Writable v ∧ WritableAll l
def WritableMap : Maps → Prop
  | .nil => True
  | .cons k v l => k.length + 5 < 2147483648 ∧ Writable v ∧ WritableMap l
end

mutual
theorem Writable.of (v : Val) (h : Plain v) : Writable v := by
  cases v with
  | int i => simp only [Plain, SmallInt] at h; simp only [Writable]; omega
  | str s => exact h.1
  | arr l => exact ⟨h.1, WritableAll.of l h.2⟩
  | map l => exact ⟨h.1, WritableMap.of l h.2⟩
  | real d => exact h
  | _ => trivial
theorem WritableAll.of (l : Vals) (h : PlainAll l) : WritableAll l := by
  cases l with
  | nil => trivial
  | cons v l => exact ⟨Writable.of v h.1, WritableAll.of l h.2⟩
theorem WritableMap.of (l : Maps) (h : PlainMap l) : WritableMap l := by
  cases l with
  | nil => trivial
  | cons k v l => exact ⟨h.1.1, Writable.of v h.2.1, WritableMap.of l h.2.2⟩
end

mutual
theorem export_any (v : Val) (hv : Writable v) (d : Nat) (hd : depth v ≤ d) (deep : Nat) (bs rest : Bytes)
    (he : Encodes v bs) : exportAs fmt pretty d deep (bs ++ rest) = .ok (text pretty deep v, rest) := by
  obtain ⟨d, rfl⟩ : ∃ e, d = e + 1 := ⟨d - 1, by have := depth_pos v; omega⟩
  cases v with
  | null => simp only [Encodes] at he; subst he; rfl
  | bool b => simp only [Encodes] at he; subst he; cases b <;> rfl
  | int i =>
    simp only [Encodes] at he; subst he
    simp only [Writable] at hv
    exact export_int fmt pretty deep rest (by omega) (by omega)
  | real x => exact absurd hv (by simp [Writable])
  | str s =>
    simp only [Encodes] at he; subst he
    simp only [Writable] at hv
    exact export_str fmt pretty deep rest hv
  | arr l =>
    obtain ⟨h, b, hh, hb, rfl⟩ := he
    simp only [Writable] at hv
    rw [List.append_assoc, export_arr fmt pretty deep _ hv.1 hh,
      export_anyAll l hv.2 d (by simp [depth] at hd; omega) deep b rest hb]
    rfl
  | map l =>
    obtain ⟨h, b, hh, hb, rfl⟩ := he
    simp only [Writable] at hv
    rw [List.append_assoc, export_map fmt pretty deep _ hv.1 hh,
      export_anyMap l hv.2 d (by simp [depth] at hd; omega) deep b rest hb]
    rfl
theorem export_anyAll (l : Vals) (hv : WritableAll l) (d : Nat) (hd : depthAll l ≤ d) (deep : Nat) (bs rest : Bytes)
    (he : EncodesAll l bs) :
    exportAll (exportAs fmt pretty d deep) l.len (bs ++ rest) = .ok (textAll pretty deep l, rest) := by
  cases l with
  | nil => simp only [EncodesAll] at he; subst he; rfl
  | cons v l =>
    obtain ⟨b1, b2, h1, h2, rfl⟩ := he
    simp only [WritableAll] at hv
    simp only [depthAll] at hd
    simp only [Vals.len, exportAll]
    rw [List.append_assoc, export_any v hv.1 d (by omega) deep b1 _ h1, Res.bind_ok,
      export_anyAll l hv.2 d (by omega) deep b2 rest h2, Res.bind_ok, textAll]
theorem export_anyMap (l : Maps) (hv : WritableMap l) (d : Nat) (hd : depthMap l ≤ d) (deep : Nat) (bs rest : Bytes)
    (he : EncodesMap l bs) :
    exportEntries (exportAs fmt pretty d (deep + 1)) pretty deep l.len (bs ++ rest) =
      .ok (textMap pretty deep l, rest) := by
  cases l with
  | nil => simp only [EncodesMap] at he; subst he; rfl
  | cons k v l =>
    obtain ⟨b1, b2, h1, h2, rfl⟩ := he
    simp only [WritableMap] at hv
    simp only [depthMap] at hd
    simp only [Maps.len, exportEntries]
    have hk : exportAs fmt pretty d (deep + 1) (data_write_raw k ++ (b1 ++ (b2 ++ rest))) =
        .ok ([34] ++ k ++ [34], b1 ++ (b2 ++ rest)) := by
      obtain ⟨e, rfl⟩ : ∃ e, d = e + 1 := ⟨d - 1, by omega⟩
      exact export_str fmt pretty _ _ hv.1
    rw [List.append_assoc, List.append_assoc, hk, Res.bind_ok]
    dsimp only
    rw [export_any v hv.2.1 d (by omega) (deep + 1) b1 _ h1, Res.bind_ok]
    dsimp only
    rw [export_anyMap l hv.2.2 d (by omega) deep b2 rest h2, Res.bind_ok, textMap]
end
theorem export_text (v : Val) (hv : Plain v) (d : Nat) (hd : depth v ≤ d) (deep : Nat) (bs rest : Bytes)
    (he : Encodes v bs) : exportAs fmt pretty d deep (bs ++ rest) = .ok (text pretty deep v, rest) :=
  export_any fmt pretty v (Writable.of v hv) d hd deep bs rest he
end

/-! Reading. -/

theorem chr_small {b : UInt8} (h : b.toNat < 128) : chr b = b.toNat := by
  unfold chr signed; rw [if_pos (by omega)]

theorem next_zero {b : UInt8} (r : Bytes) (h : isspace b = false) : next 0 (b :: r) = (chr b, b :: r) := by
  simp [next, h]

theorem next_one {a b : UInt8} (r : Bytes) (h : isspace b = false) : next 1 (a :: b :: r) = (chr b, b :: r) := by
  simp [next, h]

theorem next_one_space {a b c : UInt8} (r : Bytes) (hb : isspace b = true) (h : isspace c = false) :
    next 1 (a :: b :: c :: r) = (chr c, c :: r) := by
  simp [next, h, hb]

theorem dropWhile_indent (n : Nat) (r : Bytes) : (indent n ++ r).dropWhile isspace = r.dropWhile isspace := by
  unfold indent
  induction 2 * n with
  | zero => rfl
  | succ n ih =>
    rw [List.replicate_succ, List.cons_append, List.dropWhile_cons_of_pos (by decide)]
    exact ih

/-- The characters that end a number. -/
def Stops (s : Bytes) : Prop :=
  ∀ b r, s = b :: r → isdigit b = false ∧ b ≠ 46 ∧ b ≠ 101 ∧ b ≠ 69

theorem scan_delimited (s r : Bytes) (slash : Bool) (h : delimited slash s = true) :
    scan slash (s ++ 34 :: r) = some (s, r) := by
  induction s generalizing slash with
  | nil => cases slash <;> simp_all [delimited, scan]
  | cons b s ih =>
    simp only [delimited] at h
    simp only [List.cons_append, scan]
    split at h
    · rename_i hs; rw [if_pos hs, ih _ h]; rfl
    · rename_i hs; rw [if_neg hs]
      split at h
      · rename_i hb; rw [if_pos hb, ih _ h]; rfl
      · rename_i hb; rw [if_neg hb]
        split at h
        · cases h
        · rename_i hq; rw [if_neg hq, ih _ h]; rfl

theorem delimited_of_scan (s r : Bytes) (slash : Bool) (t : Bytes) (h : scan slash (s ++ 34 :: r) = some (t, r)) :
    delimited slash s = true := by
  have hl : ∀ (u : Bytes) (sl : Bool) (t q : Bytes), scan sl u = some (t, q) → q.length < u.length := by
    intro u
    induction u with
    | nil => intro sl t q h; simp [scan] at h
    | cons b u ih =>
      intro sl t q h
      simp only [scan] at h
      repeat' split at h
      all_goals first
        | (obtain ⟨p, hp, e⟩ := Option.map_eq_some_iff.1 h
           have := ih _ _ _ hp
           simp only [Prod.mk.injEq] at e
           rw [← e.2]; simp; omega)
        | (simp only [Option.some.injEq, Prod.mk.injEq] at h; rw [← h.2]; simp)
  induction s generalizing slash t with
  | nil =>
    cases slash with
    | false => rfl
    | true =>
      simp only [List.nil_append, scan, if_true] at h
      obtain ⟨p, hp, e⟩ := Option.map_eq_some_iff.1 h
      have := hl _ _ _ _ hp
      simp only [Prod.mk.injEq] at e
      rw [e.2] at this; omega
  | cons b s ih =>
    simp only [List.cons_append, scan] at h
    simp only [delimited]
    split at h
    · rename_i hs
      rw [if_pos hs]
      obtain ⟨p, hp, e⟩ := Option.map_eq_some_iff.1 h
      simp only [Prod.mk.injEq] at e
      exact ih false p.1 (by rw [hp, ← e.2])
    · rename_i hs
      rw [if_neg hs]
      split at h
      · rename_i hb
        rw [if_pos hb]
        obtain ⟨p, hp, e⟩ := Option.map_eq_some_iff.1 h
        simp only [Prod.mk.injEq] at e
        exact ih true p.1 (by rw [hp, ← e.2])
      · rename_i hb
        rw [if_neg hb]
        split at h
        · simp only [Option.some.injEq, Prod.mk.injEq] at h
          have := congrArg List.length h.2
          simp at this; omega
        · rename_i hq
          rw [if_neg hq]
          obtain ⟨p, hp, e⟩ := Option.map_eq_some_iff.1 h
          simp only [Prod.mk.injEq] at e
          exact ih false p.1 (by rw [hp, ← e.2])

theorem decDigits_ne (w n : Nat) : decDigits (w + 1) n ≠ [] := by
  unfold decDigits; simp

theorem digit_toNat (n : Nat) : (UInt8.ofNat (48 + n % 10)).toNat = 48 + n % 10 := by
  simp; omega

theorem digits_dec (w n : Nat) (hn : n < 10 ^ w) (hb : n ≤ 9223372036854775759) (hw : 0 < w) (tail : Bytes) :
    digits 0 (decDigits w n ++ tail) = digits n tail := by
  induction w generalizing n tail with
  | zero => omega
  | succ w ih =>
    unfold decDigits
    have step : ∀ (m : Nat), m * 10 + n % 10 = n →
        digits (m : Int) (UInt8.ofNat (48 + n % 10) :: tail) = digits n tail := by
      intro m hm
      rw [digits]
      have ht := digit_toNat n
      have hd : isdigit (UInt8.ofNat (48 + n % 10)) = true := by
        simp only [isdigit, Bool.and_eq_true, decide_eq_true_eq, UInt8.le_iff_toNat_le, ht]
        exact ⟨by simp, by simp; omega⟩
      have e1 : ∀ c : UInt8, isdigit c = false → UInt8.ofNat (48 + n % 10) ≠ c := by
        intro c hc he; rw [he, hc] at hd; cases hd
      have h46 := e1 46 (by decide)
      have h101 := e1 101 (by decide)
      have h69 := e1 69 (by decide)
      generalize UInt8.ofNat (48 + n % 10) = c at *
      rw [if_neg (by simp [h46, h101, h69]), if_neg (by simp [hd]), ht, if_neg (by omega)]
      congr 1
      omega
    split
    · rename_i h
      exact step 0 (by omega)
    · rename_i h
      rw [List.append_assoc, ih (n / 10) (by rw [Nat.pow_succ] at hn; omega) (by omega)
        (by rcases Nat.eq_zero_or_pos w with rfl | h; (· simp at hn; omega); exact h)]
      exact step (n / 10) (by omega)

theorem digits_stop (v : Int) (tail : Bytes) (h : Stops tail) : digits v tail = .ok (some (v, tail)) := by
  cases tail with
  | nil => rfl
  | cons b r =>
    obtain ⟨h1, h2, h3, h4⟩ := h b r rfl
    rw [digits, if_neg (by simp [h2, h3, h4]), if_pos (by simp [h1])]

/-- Every text of a natural number starts with a digit. -/
theorem decDigits_head (w n : Nat) : ∃ b r, decDigits (w + 1) n = b :: r ∧ 48 ≤ b.toNat ∧ b.toNat ≤ 57 := by
  induction w generalizing n with
  | zero =>
    refine ⟨UInt8.ofNat (48 + n % 10), [], ?_, ?_, ?_⟩
    · simp [decDigits]
    · rw [digit_toNat]; omega
    · rw [digit_toNat]; omega
  | succ w ih =>
    unfold decDigits
    split
    · exact ⟨_, _, rfl, by rw [digit_toNat]; omega, by rw [digit_toNat]; omega⟩
    · obtain ⟨b, r, h, h1, h2⟩ := ih (n / 10)
      exact ⟨b, r ++ [UInt8.ofNat (48 + n % 10)], by rw [h]; rfl, h1, h2⟩

theorem number_decimal (fp : Bytes → Option (Nat × Nat)) (i : Int) (h1 : -9223372036854775759 ≤ i)
    (h2 : i ≤ 9223372036854775759) (tail : Bytes) (ht : Stops tail) :
    number fp (decimal i ++ tail) = .ok (some (tail, data_write_integer (wrapU64 i))) := by
  have hd : digits 0 (decDigits 20 i.natAbs ++ tail) = .ok (some ((i.natAbs : Int), tail)) := by
    rw [digits_dec 20 _ (by omega) (by omega) (by omega), digits_stop _ _ ht]
  obtain ⟨b, r, he, hb1, hb2⟩ := decDigits_head 19 i.natAbs
  have hne : ∀ c : UInt8, isdigit c = false → b ≠ c := by
    intro c hc e
    subst e
    simp only [isdigit, Bool.and_eq_false_iff, decide_eq_false_iff_not, UInt8.le_iff_toNat_le] at hc
    simp at hc; omega
  unfold number decimal
  by_cases hi : i < 0
  · rw [if_pos hi, List.cons_append]
    simp only [List.head?_cons, decide_true, if_true, List.drop_succ_cons, List.drop_zero]
    rw [he, List.cons_append] at hd ⊢
    rw [if_neg (by simp), if_neg (by simp [hne 46 (by decide)]), hd, Res.bind_ok]
    have : -((i.natAbs : Int)) = i := by omega
    simp [this]
  · rw [if_neg hi]
    rw [he, List.cons_append] at hd ⊢
    have h45 : ¬ (b = 45) := hne 45 (by decide)
    simp only [List.head?_cons, Option.some.injEq, h45, decide_false, Bool.false_eq_true, if_false]
    rw [if_neg (by simp), if_neg (by simp [hne 46 (by decide)]), hd, Res.bind_ok]
    have : (i.natAbs : Int) = i := by omega
    simp [this]

/-- A character that starts a value. -/
def Starts (c : UInt8) : Prop := isspace c = false ∧ 0 < chr c ∧ c ≠ 93 ∧ c ≠ 125

theorem starts_digit {c : UInt8} (h1 : 48 ≤ c.toNat) (h2 : c.toNat ≤ 57) : Starts c := by
  refine ⟨?_, ?_, ?_, ?_⟩
  · simp only [isspace, Bool.or_eq_false_iff, Bool.and_eq_false_iff, decide_eq_false_iff_not,
      UInt8.le_iff_toNat_le, ← UInt8.toNat_inj]
    simp; omega
  · rw [chr_small (by omega)]; omega
  · rw [ne_eq, ← UInt8.toNat_inj]; simp; omega
  · rw [ne_eq, ← UInt8.toNat_inj]; simp; omega

theorem text_head (pretty : Bool) (deep : Nat) (v : Val) (hv : Plain v) :
    ∃ c r, text pretty deep v = c :: r ∧ Starts c := by
  cases v with
  | null => exact ⟨_, _, rfl, by decide, by decide, by decide, by decide⟩
  | bool b => cases b <;> exact ⟨_, _, rfl, by decide, by decide, by decide, by decide⟩
  | int i =>
    obtain ⟨b, r, h, h1, h2⟩ := decDigits_head 19 i.natAbs
    unfold text decimal
    split
    · exact ⟨_, _, rfl, by decide, by decide, by decide, by decide⟩
    · exact ⟨_, _, h, starts_digit h1 h2⟩
  | real x => exact absurd hv (by simp [Plain])
  | str s => exact ⟨_, _, rfl, by decide, by decide, by decide, by decide⟩
  | arr l => exact ⟨_, _, rfl, by decide, by decide, by decide, by decide⟩
  | map l => cases pretty <;> exact ⟨_, _, rfl, by decide, by decide, by decide, by decide⟩

theorem next_at {n : Nat} {s : Bytes} (b : UInt8) (r : Bytes) {t : Int} (hn : n ≤ s.length)
    (h : (s.drop n).dropWhile isspace = b :: r) (ht : chr b = t) : next n s = (t, b :: r) := by
  unfold next; rw [if_neg (by omega), h, ← ht]

theorem chr_93 {c : UInt8} (h : chr c = 93) : c = 93 := by
  unfold chr signed at h
  rw [← UInt8.toNat_inj]
  have := c.toNat_lt
  split at h <;> simp at * <;> omega

theorem read_next (fp : Bytes → Option (Nat × Nat)) (d : Nat) {n m : Nat} {s t : Bytes} (h : next n s = next m t) :
    read fp d n s = read fp d m t := by
  cases d with
  | zero => rfl
  | succ d => simp only [read, h]

theorem textAll_len (pretty : Bool) (deep : Nat) (l : Vals) (hl : PlainAll l) : l.len ≤ (textAll pretty deep l).length := by
  match l with
  | .nil => simp [Vals.len]
  | .cons v l =>
    simp only [PlainAll] at hl
    obtain ⟨c, r, h, _⟩ := text_head pretty deep v hl.1
    have := textAll_len pretty deep l hl.2
    simp only [Vals.len, textAll, h, List.length_append, List.length_cons]; omega

theorem textMap_len (pretty : Bool) (deep : Nat) (l : Maps) : l.len ≤ (textMap pretty deep l).length := by
  match l with
  | .nil => simp [Maps.len]
  | .cons k v l =>
    have := textMap_len pretty deep l
    simp only [Maps.len, textMap, List.length_append, List.length_cons]; omega

/-- The text of the entries without the spaces before the first key. -/
def bodyMap (pretty : Bool) (deep : Nat) (k : Bytes) (v : Val) (l : Maps) : Bytes :=
  34 :: (k ++ 34 :: 58 :: 32 :: (text pretty (deep + 1) v ++
    ((if pretty then (if l.len > 0 then [44, 10] else [10]) else (if l.len > 0 then [44, 32] else [])) ++
      textMap pretty deep l)))

theorem textMap_body (pretty : Bool) (deep : Nat) (k : Bytes) (v : Val) (l : Maps) :
    textMap pretty deep (.cons k v l) = (if pretty then indent (deep + 1) else []) ++ bodyMap pretty deep k v l := by
  simp [textMap, bodyMap]

theorem drop_textMap (pretty : Bool) (deep : Nat) (k : Bytes) (v : Val) (l : Maps) (tail : Bytes) :
    (textMap pretty deep (.cons k v l) ++ tail).dropWhile isspace = bodyMap pretty deep k v l ++ tail := by
  rw [textMap_body, List.append_assoc]
  have hb : (bodyMap pretty deep k v l ++ tail).dropWhile isspace = bodyMap pretty deep k v l ++ tail := by
    unfold bodyMap
    rw [List.cons_append, List.dropWhile_cons_of_neg (by decide)]
  cases pretty with
  | false => exact hb
  | true => rw [if_pos (by trivial), dropWhile_indent]; exact hb

theorem stops_cons {b : UInt8} (r : Bytes) (h : isdigit b = false ∧ b ≠ 46 ∧ b ≠ 101 ∧ b ≠ 69) : Stops (b :: r) := by
  intro c q e; cases e; exact h

theorem stops_indent (n : Nat) {b : UInt8} (r : Bytes) (h : isdigit b = false ∧ b ≠ 46 ∧ b ≠ 101 ∧ b ≠ 69) :
    Stops (indent n ++ b :: r) := by
  unfold indent
  cases 2 * n with
  | zero => exact stops_cons r h
  | succ n => exact stops_cons _ (by decide)

section
variable (fp : Bytes → Option (Nat × Nat)) (pretty : Bool)

/-- Reading a quoted string. -/
theorem read_str (d : Nat) {k : Bytes} (hk : delimited false k = true) (tail : Bytes) :
    read fp (d + 1) 0 (34 :: (k ++ 34 :: tail)) = .ok (34, tail, data_write_raw k) := by
  have hn : next 0 (34 :: (k ++ 34 :: tail)) = (34, 34 :: (k ++ 34 :: tail)) := next_zero _ (by decide)
  simp only [read, hn]
  rw [if_neg (by decide), if_neg (by decide), if_neg (by decide), if_pos (by trivial), List.drop_succ_cons, List.drop_zero,
    scan_delimited _ _ _ hk]
  rfl

mutual
theorem read_text (v : Val) (hv : Plain v) (d : Nat) (hd : depth v ≤ d) (deep : Nat) (tail : Bytes)
    (ht : Stops tail) :
    ∃ token, 0 < token ∧ read fp d 0 (text pretty deep v ++ tail) = .ok (token, tail, enc32 v) := by
  obtain ⟨d, rfl⟩ : ∃ e, d = e + 1 := ⟨d - 1, by have := depth_pos v; omega⟩
  cases v with
  | null => exact ⟨110, by decide, rfl⟩
  | bool b =>
    cases b with
    | false => exact ⟨102, by decide, rfl⟩
    | true => exact ⟨116, by decide, rfl⟩
  | int i =>
    simp only [Plain, SmallInt] at hv
    obtain ⟨c, r, hc, hs⟩ := text_head pretty deep (.int i) (by simpa [Plain, SmallInt] using hv)
    have hnum := number_decimal fp i hv.1 hv.2 tail ht
    simp only [text] at hc ⊢
    have hcc : chr c = 45 ∨ (48 ≤ chr c ∧ chr c ≤ 57) := by
      unfold decimal at hc
      split at hc
      · cases hc; exact .inl (by decide)
      · obtain ⟨b, q, h, h1, h2⟩ := decDigits_head 19 i.natAbs
        rw [h] at hc; cases hc
        right; rw [chr_small (by omega)]; omega
    have hn : next 0 (decimal i ++ tail) = (chr c, decimal i ++ tail) := by
      rw [hc, List.cons_append]; exact next_zero _ hs.1
    refine ⟨chr c, hs.2.1, ?_⟩
    simp only [read, hn]
    rw [if_neg (by have := hs.2.1; omega), if_neg (by omega), if_neg (by omega), if_neg (by omega), if_neg (by omega),
      if_neg (by omega), if_neg (by omega), if_pos (by omega), hnum]
    rfl
  | real x => exact absurd hv (by simp [Plain])
  | str s =>
    simp only [Plain, SmallInt] at hv
    refine ⟨34, by decide, ?_⟩
    have := read_str fp d hv.2 tail
    simpa [text, enc32] using this
  | arr l =>
    simp only [Plain, SmallInt] at hv
    refine ⟨91, by decide, ?_⟩
    have hn : next 0 (text pretty deep (.arr l) ++ tail) = (91, text pretty deep (.arr l) ++ tail) := next_zero _ (by decide)
    simp only [read, hn]
    rw [if_neg (by decide), if_pos (by trivial)]
    cases l with
    | nil => rfl
    | cons v l =>
      obtain ⟨c, r, hc, hs⟩ := text_head pretty deep v (by simp only [PlainAll] at hv; exact hv.2.1)
      have hn1 : next 1 (text pretty deep (.arr (.cons v l)) ++ tail) =
          (chr c, textAll pretty deep (.cons v l) ++ 93 :: tail) := by
        have : text pretty deep (.arr (.cons v l)) ++ tail = 91 :: (textAll pretty deep (.cons v l) ++ 93 :: tail) := by
          simp [text]
        rw [this]
        simp only [textAll, hc, List.cons_append]
        exact next_one _ hs.1
      simp only [hn1]
      have hp := hs.2.1
      have h93 : chr c ≠ 93 := by
        intro e
        exact hs.2.2.1 (chr_93 e)
      rw [if_neg (by omega), if_neg h93, read_elements v l hv.2 d (by simp [depth] at hd; omega) deep tail _
        (by have := textAll_len pretty deep _ hv.2; simp only [List.length_append, Vals.len] at this ⊢; omega)]
      rfl
  | map l =>
    simp only [Plain, SmallInt] at hv
    refine ⟨123, by decide, ?_⟩
    have hn : next 0 (text pretty deep (.map l) ++ tail) = (123, text pretty deep (.map l) ++ tail) := by
      cases pretty <;> exact next_zero _ (by decide)
    simp only [read, hn]
    rw [if_neg (by decide), if_neg (by decide), if_pos (by trivial)]
    have hlen : 1 ≤ (text pretty deep (.map l) ++ tail).length := by
      simp only [text, List.length_append]; split <;> simp <;> omega
    cases l with
    | nil =>
      have hn1 : next 1 (text pretty deep (.map .nil) ++ tail) = (125, 125 :: tail) := by
        refine next_at 125 tail hlen ?_ (by decide)
        cases pretty with
        | false => rfl
        | true =>
          have : (text true deep (.map .nil) ++ tail).drop 1 = 10 :: (indent deep ++ 125 :: tail) := by
            simp [text, textMap]
          rw [this, List.dropWhile_cons_of_pos (by decide), dropWhile_indent]
          rfl
      simp only [hn1]
      rfl
    | cons k v l =>
      have hn1 : next 1 (text pretty deep (.map (.cons k v l)) ++ tail) =
          (34, bodyMap pretty deep k v l ++ ((if pretty then indent deep else []) ++ 125 :: tail)) := by
        refine next_at 34 _ hlen ?_ (by decide)
        have e : ((text pretty deep (.map (.cons k v l)) ++ tail).drop 1).dropWhile isspace =
            (textMap pretty deep (.cons k v l) ++ ((if pretty then indent deep else []) ++ 125 :: tail)).dropWhile isspace := by
          cases pretty with
          | false => simp [text]
          | true =>
            have : (text true deep (.map (.cons k v l)) ++ tail).drop 1 =
                10 :: (textMap true deep (.cons k v l) ++ (indent deep ++ 125 :: tail)) := by
              simp [text]
            rw [this, List.dropWhile_cons_of_pos (by decide)]
            rfl
        rw [e, drop_textMap]
        rfl
      simp only [hn1]
      rw [if_neg (by decide), if_neg (by decide), read_entries k v l hv.2 d (by simp [depth] at hd; omega) deep tail _
        (by
          have := textMap_len pretty deep l
          simp only [Maps.len, bodyMap, List.length_append, List.length_cons]; omega)]
      rfl
termination_by sizeOf v
decreasing_by all_goals (subst_vars; simp; done)
theorem read_elements (v : Val) (l : Vals) (hv : PlainAll (.cons v l)) (d : Nat) (hd : depthAll (.cons v l) ≤ d)
    (deep : Nat) (tail : Bytes) (n : Nat) (hn : (Vals.cons v l).len ≤ n) :
    elements (read fp d 0) n (textAll pretty deep (.cons v l) ++ 93 :: tail) =
      .ok (some ((Vals.cons v l).len, tail, encAll32 (.cons v l))) := by
  obtain ⟨n, rfl⟩ : ∃ m, n = m + 1 := ⟨n - 1, by simp [Vals.len] at hn; omega⟩
  simp only [PlainAll] at hv
  simp only [depthAll] at hd
  cases l with
  | nil =>
    obtain ⟨token, hp, hr⟩ := read_text v hv.1 d (by omega) deep (93 :: tail) (stops_cons _ (by decide))
    have e : textAll pretty deep (.cons v .nil) ++ 93 :: tail = text pretty deep v ++ 93 :: tail := by
      simp [textAll, Vals.len]
    rw [elements, e, hr, Res.bind_ok]
    have hn : next 0 (93 :: tail) = (93, 93 :: tail) := next_zero _ (by decide)
    simp only [hn]
    rw [if_neg (by omega), if_pos (by trivial)]
    simp [Vals.len, encAll32]
  | cons w l =>
    have hw := hv.2
    simp only [PlainAll] at hw
    obtain ⟨token, hp, hr⟩ := read_text v hv.1 d (by omega) deep (44 :: 32 :: (textAll pretty deep (.cons w l) ++ 93 :: tail))
      (stops_cons _ (by decide))
    have e : textAll pretty deep (.cons v (.cons w l)) ++ 93 :: tail =
        text pretty deep v ++ 44 :: 32 :: (textAll pretty deep (.cons w l) ++ 93 :: tail) := by
      simp [textAll, Vals.len]
    rw [elements, e, hr, Res.bind_ok]
    obtain ⟨c, r, hc, hs⟩ := text_head pretty deep w hw.1
    have hn0 : next 0 (44 :: 32 :: (textAll pretty deep (.cons w l) ++ 93 :: tail)) =
        (44, 44 :: 32 :: (textAll pretty deep (.cons w l) ++ 93 :: tail)) := next_zero _ (by decide)
    have hn1 : next 1 (44 :: 32 :: (textAll pretty deep (.cons w l) ++ 93 :: tail)) =
        (chr c, textAll pretty deep (.cons w l) ++ 93 :: tail) := by
      simp only [textAll, hc, List.cons_append]
      exact next_one_space _ (by decide) hs.1
    have hp2 := hs.2.1
    simp only [hn0, hn1]
    rw [if_neg (by omega), if_neg (by decide), if_neg (by decide), if_neg (by omega),
      read_elements w l hv.2 d (by omega) deep tail n (by simp [Vals.len] at hn ⊢; omega), Res.bind_ok]
    simp [Vals.len, encAll32]
termination_by sizeOf (Vals.cons v l)
decreasing_by all_goals (subst_vars; simp; omega)
theorem read_entries (k : Bytes) (v : Val) (l : Maps) (hv : PlainMap (.cons k v l)) (d : Nat)
    (hd : depthMap (.cons k v l) ≤ d) (deep : Nat) (tail : Bytes) (n : Nat) (hn : (Maps.cons k v l).len ≤ n) :
    entries (read fp d) n (bodyMap pretty deep k v l ++ ((if pretty then indent deep else []) ++ 125 :: tail)) =
      .ok (some ((Maps.cons k v l).len, tail, encMap32 (.cons k v l))) := by
  obtain ⟨n, rfl⟩ : ∃ m, n = m + 1 := ⟨n - 1, by simp [Maps.len] at hn; omega⟩
  simp only [PlainMap] at hv
  simp only [depthMap] at hd
  obtain ⟨e, rfl⟩ : ∃ e, d = e + 1 := ⟨d - 1, by omega⟩
  obtain ⟨c, r, hc, hs⟩ := text_head pretty (deep + 1) v hv.2.1
  -- what follows the value
  obtain ⟨after, ha⟩ : ∃ a, a = (if pretty then (if l.len > 0 then [44, 10] else [10])
        else (if l.len > 0 then [44, 32] else [])) ++
      (textMap pretty deep l ++ ((if pretty then indent deep else []) ++ 125 :: tail)) := ⟨_, rfl⟩
  have hbody : bodyMap pretty deep k v l ++ ((if pretty then indent deep else []) ++ 125 :: tail) =
      34 :: (k ++ 34 :: (58 :: 32 :: (text pretty (deep + 1) v ++ after))) := by
    rw [ha]; simp [bodyMap]
  have hkey := read_str fp e hv.1.2 (58 :: 32 :: (text pretty (deep + 1) v ++ after))
  have hcolon : next 0 (58 :: 32 :: (text pretty (deep + 1) v ++ after)) =
      (58, 58 :: 32 :: (text pretty (deep + 1) v ++ after)) := next_zero _ (by decide)
  have hval : read fp (e + 1) 1 (58 :: 32 :: (text pretty (deep + 1) v ++ after)) =
      read fp (e + 1) 0 (text pretty (deep + 1) v ++ after) := by
    refine read_next fp _ ?_
    rw [hc, List.cons_append, next_one_space _ (by decide) hs.1, next_zero _ hs.1]
  have hstop : Stops after := by
    rw [ha]
    cases pretty <;> cases l with
    | nil =>
      first
      | exact stops_cons _ (by decide)
      | (simp only [textMap, Maps.len]; exact stops_cons _ (by decide))
    | cons _ _ _ => simp only [Maps.len]; exact stops_cons _ (by decide)
  obtain ⟨token, hp, hr⟩ := read_text v hv.2.1 (e + 1) (by omega) (deep + 1) after hstop
  rw [hbody, entries, hkey, Res.bind_ok]
  simp only [hcolon, hval, hr, Res.bind_ok]
  rw [if_neg (by decide), if_neg (by decide), if_neg (by omega)]
  cases l with
  | nil =>
    have hn0 : next 0 after = (125, 125 :: tail) := by
      refine next_at 125 tail (by omega) ?_ (by decide)
      rw [ha]
      cases pretty with
      | false => rfl
      | true =>
        have e : (if (true : Bool) = true then (if Maps.nil.len > 0 then ([44, 10] : Bytes) else [10])
              else (if Maps.nil.len > 0 then [44, 32] else [])) ++
            (textMap true deep .nil ++ ((if (true : Bool) = true then indent deep else []) ++ 125 :: tail)) =
            10 :: (indent deep ++ 125 :: tail) := rfl
        rw [e, List.drop_zero, List.dropWhile_cons_of_pos (by decide), dropWhile_indent]
        rfl
    simp only [hn0]
    rw [if_pos (by trivial)]
    simp [Maps.len, encMap32]
  | cons k2 v2 l2 =>
    have hn0 : next 0 after = (44, after) := by
      rw [ha]
      cases pretty <;> exact next_zero _ (by decide)
    have hn1 : next 1 after = (34, bodyMap pretty deep k2 v2 l2 ++ ((if pretty then indent deep else []) ++ 125 :: tail)) := by
      refine next_at 34 _ (by rw [ha]; cases pretty <;> simp [Maps.len]) ?_ (by decide)
      have : (after.drop 1).dropWhile isspace =
          (textMap pretty deep (.cons k2 v2 l2) ++ ((if pretty then indent deep else []) ++ 125 :: tail)).dropWhile isspace := by
        rw [ha]
        cases pretty <;> simp [Maps.len, isspace]
      rw [this, drop_textMap]
      rfl
    simp only [hn0, hn1]
    rw [if_neg (by decide), if_neg (by decide), if_neg (by decide),
      read_entries k2 v2 l2 hv.2.2 (e + 1) (by omega) deep tail n (by simp [Maps.len] at hn ⊢; omega), Res.bind_ok]
    simp [Maps.len, encMap32]
termination_by sizeOf (Maps.cons k v l)
decreasing_by all_goals (subst_vars; simp; omega)
end

/-- The text of a value is read as that value. -/
theorem parse_text (v : Val) (hv : Plain v) (d : Nat) (hd : depth v ≤ d) (deep : Nat) :
    parse fp d (text pretty deep v) = .ok (enc32 v) := by
  obtain ⟨token, hp, hr⟩ := read_text fp pretty v hv d hd deep [] (by intro b r h; cases h)
  rw [List.append_nil] at hr
  unfold parse
  rw [hr, Res.bind_ok]
  dsimp only
  rw [if_neg (by omega)]
end
end Json
end Verif
