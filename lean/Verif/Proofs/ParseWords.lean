import Verif.Spec.C58

/-! Reserved words: the table of the tokenizer against the lists of C58. -/
namespace Verif.C58
open Lex Parse

/-- The word a row of the table stands for. -/
def rowWord (row : Verif.Kw × String × Nat) : List Nat := (bytes row.2.1).take row.2.2

theorem rows_lower : ∀ row ∈ keywordTable, (rowWord row).map lower = rowWord row ∧ (rowWord row).length = row.2.2 := by
  decide +kernel

theorem rowMatches_iff {s : List Nat} {row : Verif.Kw × String × Nat} (h : row ∈ keywordTable) :
    rowMatches s row = true ↔ s.map lower = rowWord row := by
  obtain ⟨h1, h2⟩ := rows_lower row h
  unfold rowMatches
  rw [Bool.and_eq_true, beq_iff_eq, beq_iff_eq]
  constructor
  · rintro ⟨a, b⟩
    rw [List.take_of_length_le (by omega)] at b
    rw [b]; exact h1
  · intro e
    have hl : s.length = row.2.2 := by rw [← h2, ← e, List.length_map]
    refine ⟨hl.symm, ?_⟩
    rw [List.take_of_length_le (by omega), e]
    exact h1.symm

/-- No two rows have the same word and different ids. -/
theorem rows_distinct : ∀ r1 ∈ keywordTable, ∀ r2 ∈ keywordTable, rowWord r1 = rowWord r2 → r1.1 = r2.1 := by
  decide +kernel

theorem findKeyword_iff {s : List Nat} {k : Verif.Kw} :
    findKeyword s = some k ↔ ∃ row ∈ keywordTable, row.1 = k ∧ s.map lower = rowWord row := by
  unfold findKeyword
  constructor
  · intro h
    obtain ⟨row, h1, h2⟩ := Option.map_eq_some_iff.1 h
    have hm := List.mem_of_find?_eq_some h1
    have hp := List.find?_some h1
    exact ⟨row, hm, h2, (rowMatches_iff hm).1 hp⟩
  · rintro ⟨row, hm, rfl, hw⟩
    have hsome : (keywordTable.find? (rowMatches s)).isSome := by
      rw [List.find?_isSome]
      exact ⟨row, hm, (rowMatches_iff hm).2 hw⟩
    obtain ⟨r, hr⟩ := Option.isSome_iff_exists.1 hsome
    have hm' := List.mem_of_find?_eq_some hr
    have hp := (rowMatches_iff hm').1 (List.find?_some hr)
    rw [hr, Option.map_some, rows_distinct r hm' row hm (by rw [← hp, ← hw])]

/-- The name of a keyword. -/
def kwName : Verif.Kw → String
  | .kw n => n
  | .unit _ => ""

/-- The factor of a unit. -/
def kwFactor : Verif.Kw → Nat
  | .kw _ => 0
  | .unit u => factor u

theorem kw_rows : (∀ n ∈ keywords, ∃ row ∈ keywordTable, row.1 = .kw n ∧ bytes n = rowWord row) ∧
    ∀ row ∈ keywordTable, ∀ n, row.1 = .kw n → n ∈ keywords ∧ rowWord row = bytes n := by
  constructor
  · decide +kernel
  · have h : ∀ row ∈ keywordTable, row.1 = .kw (kwName row.1) → kwName row.1 ∈ keywords ∧ rowWord row = bytes (kwName row.1) := by
      decide +kernel
    intro row hm n e
    have := h row hm
    rw [e] at this
    exact this rfl

theorem findKeyword_kw {s : List Nat} {n : String} : findKeyword s = some (.kw n) ↔ n ∈ keywords ∧ s.map lower = bytes n := by
  rw [findKeyword_iff]
  constructor
  · rintro ⟨row, hm, e, hw⟩
    obtain ⟨h1, h2⟩ := kw_rows.2 row hm n e
    exact ⟨h1, by rw [hw, h2]⟩
  · rintro ⟨h1, h2⟩
    obtain ⟨row, hm, e, hw⟩ := kw_rows.1 n h1
    exact ⟨row, hm, e, by rw [h2, hw]⟩

theorem unit_rows : (∀ p ∈ units, ∃ row ∈ keywordTable, rowWord row = bytes p.1 ∧ kwFactor row.1 = p.2 ∧ row.1 ≠ .kw (kwName row.1)) ∧
    ∀ row ∈ keywordTable, row.1 ≠ .kw (kwName row.1) → ∃ p ∈ units, bytes p.1 = rowWord row ∧ p.2 = kwFactor row.1 := by
  constructor <;> decide +kernel

theorem unit_iff {s : List Nat} {f : Nat} : Unit' s f ↔ ∃ u, findKeyword s = some (.unit u) ∧ factor u = f := by
  constructor
  · rintro ⟨w, hm, e⟩
    obtain ⟨row, h1, h2, h3, h4⟩ := unit_rows.1 _ hm
    cases hk : row.1 with
    | unit u =>
      rw [hk] at h3
      exact ⟨u, findKeyword_iff.2 ⟨row, h1, hk, by rw [e, h2]⟩, h3⟩
    | kw n => rw [hk] at h4; exact absurd rfl h4
  · rintro ⟨u, h, rfl⟩
    obtain ⟨row, hm, hk, hw⟩ := findKeyword_iff.1 h
    have := unit_rows.2 row hm
    rw [hk] at this
    obtain ⟨p, h1, h2, h3⟩ := this (by simp)
    refine ⟨p.1, ?_, by rw [hw, h2]⟩
    have h3 : p.2 = factor u := h3
    rw [← h3]; exact h1

theorem reserved_iff {s : List Nat} : Reserved s ↔ findKeyword s ≠ none := by
  constructor
  · rintro (⟨n, h1, h2⟩ | ⟨f, h⟩)
    · rw [findKeyword_kw.2 ⟨h1, h2⟩]; simp
    · obtain ⟨u, h, _⟩ := unit_iff.1 h
      rw [h]; simp
  · intro h
    cases hk : findKeyword s with
    | none => exact absurd hk h
    | some k =>
      cases k with
      | kw n => exact Or.inl ⟨n, (findKeyword_kw.1 hk).1, (findKeyword_kw.1 hk).2⟩
      | unit u => exact Or.inr ⟨_, unit_iff.2 ⟨u, hk, rfl⟩⟩

theorem kw_token {n : String} {a : Item} (h : n ∈ keywords) : isKw n (token a) = true ↔ Kw n a := by
  constructor
  · intro e
    cases a with
    | word s =>
      simp only [token] at e
      cases hk : findKeyword s with
      | none => rw [hk] at e; simp [isKw] at e
      | some k =>
        rw [hk] at e
        cases k with
        | unit u => simp [isKw] at e
        | kw m =>
          simp only [isKw, beq_iff_eq] at e
          subst e
          exact ⟨s, rfl, (findKeyword_kw.1 hk).2⟩
    | _ => simp [token, isKw] at e
  · rintro ⟨s, rfl, e⟩
    simp only [token]
    rw [findKeyword_kw.2 ⟨h, e⟩]
    simp [isKw]

theorem kw_token_eq {n : String} {a : Item} (h : n ∈ keywords) (e : Kw n a) : ∃ s, a = .word s ∧ token a = .keyword (.kw n) s := by
  obtain ⟨s, rfl, e⟩ := e
  refine ⟨s, rfl, ?_⟩
  simp only [token]
  rw [findKeyword_kw.2 ⟨h, e⟩]

theorem name_token {s : List Nat} {a : Item} : token a = .name s ↔ Name s a := by
  unfold Name
  rw [reserved_iff]
  cases a with
  | word w =>
    simp only [token]
    cases hk : findKeyword w with
    | none =>
      simp only [Token.name.injEq, Item.word.injEq]
      constructor
      · rintro rfl; exact ⟨rfl, by simp [hk]⟩
      · exact fun h => h.1
    | some k =>
      simp only [Item.word.injEq, reduceCtorEq, false_iff, not_and, Classical.not_not]
      rintro rfl
      simp [hk]
  | _ => simp [token]

theorem token_inj {a b : Item} (h : token a = token b) : a = b := by
  have hw : ∀ s, (token (.word s) = .name s) ∨ ∃ k, token (.word s) = .keyword k s := by
    intro s
    simp only [token]
    cases findKeyword s with
    | none => exact Or.inl rfl
    | some k => exact Or.inr ⟨k, rfl⟩
  cases a with
  | word s =>
    cases b with
    | word t =>
      rcases hw s with e | ⟨k, e⟩ <;> rcases hw t with e' | ⟨k', e'⟩ <;> rw [e, e'] at h <;> simp at h
      · rw [h]
      · rw [h.2]
    | _ => rcases hw s with e | ⟨k, e⟩ <;> rw [e] at h <;> simp [token] at h
  | int n =>
    cases b with
    | word t => rcases hw t with e | ⟨k, e⟩ <;> rw [e] at h <;> simp [token] at h
    | _ => simp [token] at h <;> simp [h]
  | string n =>
    cases b with
    | word t => rcases hw t with e | ⟨k, e⟩ <;> rw [e] at h <;> simp [token] at h
    | _ => simp [token] at h <;> simp [h]
  | symbol n =>
    cases b with
    | word t => rcases hw t with e | ⟨k, e⟩ <;> rw [e] at h <;> simp [token] at h
    | _ => simp [token] at h <;> simp [h]

theorem token_ne_eof (a : Item) : token a ≠ .eof := by
  cases a with
  | word s => simp only [token]; split <;> simp
  | _ => simp [token]

theorem isInt_token (a : Item) : isInt (token a) = true ↔ ∃ n, a = .int n := by
  cases a with
  | word s => simp only [token]; split <;> simp [isInt]
  | _ => simp [token, isInt]

end Verif.C58
