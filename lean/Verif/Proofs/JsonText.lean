import Verif.Spec.C64
import Verif.Proofs.Json

/-! What json_export_pretty writes is JSON (used by C64). -/
namespace Verif.C64
open Data Decode C34 C35 Json

mutual
theorem Clean.writable (v : Val) (h : Clean v) : Writable v := by
  cases v with
  | int i => exact h
  | str s => exact h.1
  | arr l => exact ⟨h.1, CleanAll.writable l h.2⟩
  | map l => exact ⟨h.1, CleanMap.writable l h.2⟩
  | real d => exact h
  | _ => trivial
theorem CleanAll.writable (l : Vals) (h : CleanAll l) : WritableAll l := by
  cases l with
  | nil => trivial
  | cons v l => exact ⟨Clean.writable v h.1, CleanAll.writable l h.2⟩
theorem CleanMap.writable (l : Maps) (h : CleanMap l) : WritableMap l := by
  cases l with
  | nil => trivial
  | cons k v l => exact ⟨h.1.1, Clean.writable v h.2.1, CleanMap.writable l h.2.2⟩
end

theorem value_append (a b : Bytes) : ∀ n, value n (a ++ b) = (value n a).bind fun m => value m b := by
  induction a with
  | nil => intro n; rfl
  | cons c a ih =>
    intro n
    simp only [List.cons_append, value]
    split
    · exact ih _
    · rfl

theorem digit_toNat (n : Nat) : (UInt8.ofNat (48 + n % 10)).toNat = 48 + n % 10 := by
  rw [UInt8.toNat_ofNat']; omega

theorem value_decDigits : ∀ (w n : Nat), n < 10 ^ w → value 0 (decDigits w n) = some n
  | 0, n, h => by
    have : n = 0 := by simpa using h
    subst this; rfl
  | w + 1, n, h => by
    have hd := digit_toNat n
    unfold decDigits
    by_cases hn : n < 10
    · rw [if_pos hn]
      simp only [List.nil_append, value, hd]
      rw [if_pos (by omega)]
      congr 1
      omega
    · rw [if_neg hn, value_append, value_decDigits w (n / 10) (by rw [Nat.pow_succ] at h; omega)]
      simp only [Option.bind_some, value, hd]
      rw [if_pos (by omega)]
      congr 1
      omega

theorem decDigits_zero : ∀ (w n : Nat), n < 10 ^ w → (decDigits w n).head? = some 48 → decDigits w n = [48]
  | 0, n, h, e => by simp [decDigits] at e
  | w + 1, n, h, e => by
    have hd := digit_toNat n
    unfold decDigits at e ⊢
    by_cases hn : n < 10
    · rw [if_pos hn] at e ⊢
      simp only [List.nil_append, List.head?_cons, Option.some.injEq] at e ⊢
      rw [e]
    · rw [if_neg hn] at e ⊢
      have hw : n / 10 < 10 ^ w := by rw [Nat.pow_succ] at h; omega
      have hv := value_decDigits w (n / 10) hw
      cases hl : decDigits w (n / 10) with
      | nil => rw [hl] at hv; simp only [value, Option.some.injEq] at hv; omega
      | cons c r =>
        rw [hl] at e
        have := decDigits_zero w (n / 10) hw (by rw [hl]; simpa using e)
        rw [this] at hv
        simp only [value] at hv
        have h48 : (48 : UInt8).toNat = 48 := rfl
        rw [h48] at hv
        simp at hv
        omega

theorem natural_decDigits (n : Nat) (h : n < 10 ^ 20) : Natural n (decDigits 20 n) :=
  ⟨value_decDigits 20 n h, decDigits_ne 19 n, decDigits_zero 20 n h⟩

theorem integer_decimal (i : Int) (h1 : -9223372036854775808 ≤ i) (h2 : i < 9223372036854775808) :
    Integer i (decimal i) := by
  have hp : (10 : Nat) ^ 20 = 100000000000000000000 := by decide
  unfold decimal
  by_cases h : i < 0
  · rw [if_pos h]
    refine .inr ⟨h, _, rfl, ?_⟩
    have : (-i).toNat = i.natAbs := by omega
    rw [this]
    exact natural_decDigits _ (by omega)
  · rw [if_neg h]
    refine .inl ⟨by omega, ?_⟩
    have : i.toNat = i.natAbs := by omega
    rw [this]
    exact natural_decDigits _ (by omega)

theorem chars_self (s : Bytes) (h : ∀ c ∈ s, 32 ≤ c.toNat ∧ c ≠ 34 ∧ c ≠ 92) : Chars s s := by
  induction s with
  | nil => exact .nil
  | cons c s ih =>
    obtain ⟨h1, h2, h3⟩ := h c (by simp)
    exact .plain c s s h1 h2 h3 (ih (fun d hd => h d (by simp [hd])))

theorem quoted_self {s : Bytes} (h : CleanStr s) : Quoted s ([34] ++ s ++ [34]) := ⟨s, chars_self s h.2, rfl⟩

theorem ws_append {a b : Bytes} (ha : Ws a) (hb : Ws b) : Ws (a ++ b) := by
  intro c hc
  rcases List.mem_append.1 hc with h | h
  · exact ha c h
  · exact hb c h

theorem ws_nil : Ws [] := by intro c hc; simp at hc
theorem ws_indent (n : Nat) : Ws (indent n) := by
  intro c hc; exact .inl (List.eq_of_mem_replicate hc)
theorem ws_32 : Ws [32] := by intro c hc; simp at hc; exact .inl hc
theorem ws_10 : Ws [10] := by intro c hc; simp at hc; exact .inr (.inr (.inl hc))

theorem items_front {l : Vals} {b w : Bytes} (h : IsItems l b) (hw : Ws w) : IsItems l (w ++ b) := by
  cases l with
  | nil => exact ws_append hw h
  | cons v l =>
    obtain ⟨w1, t, w2, r, h1, h2, h3, rfl, h4⟩ := h
    exact ⟨w ++ w1, t, w2, r, ws_append hw h1, h2, h3, by simp only [List.append_assoc], h4⟩

theorem entries_front {l : Maps} {b w : Bytes} (h : IsEntries l b) (hw : Ws w) : IsEntries l (w ++ b) := by
  cases l with
  | nil => exact ws_append hw h
  | cons k v l =>
    obtain ⟨w1, q, w2, w3, t, w4, r, h1, h2, h3, h4, h5, h6, rfl, h7⟩ := h
    exact ⟨w ++ w1, q, w2, w3, t, w4, r, ws_append hw h1, h2, h3, h4, h5, h6, by simp only [List.append_assoc], h7⟩

theorem entries_back : ∀ {l : Maps} {b w : Bytes}, IsEntries l b → Ws w → IsEntries l (b ++ w)
  | .nil, _, _, h, hw => ws_append h hw
  | .cons k v l, b, w, h, hw => by
    obtain ⟨w1, q, w2, w3, t, w4, r, h1, h2, h3, h4, h5, h6, rfl, h7⟩ := h
    rcases h7 with ⟨h7, rfl⟩ | ⟨h7, r', rfl, h8⟩
    · exact ⟨w1, q, w2, w3, t, w4 ++ w, [], h1, h2, h3, h4, h5, ws_append h6 hw, by simp only [List.append_assoc, List.append_nil, List.nil_append],
        .inl ⟨h7, rfl⟩⟩
    · exact ⟨w1, q, w2, w3, t, w4, [44] ++ (r' ++ w), h1, h2, h3, h4, h5, h6, by simp only [List.append_assoc],
        .inr ⟨h7, _, rfl, entries_back h8 hw⟩⟩

mutual
theorem text_json (v : Val) (h : Clean v) (deep : Nat) : IsJson v (text true deep v) := by
  cases v with
  | null => simp only [IsJson, text]; decide
  | bool b => cases b <;> (simp only [IsJson, text]; decide)
  | int i => exact integer_decimal i h.1 h.2
  | real d => exact h.elim
  | str s => exact quoted_self h
  | arr l => exact ⟨_, text_items l h.2 deep, rfl⟩
  | map l =>
    refine ⟨[10] ++ textMap true deep l ++ indent deep, entries_back (entries_front (text_entries l h.2 deep) ws_10) (ws_indent _), ?_⟩
    simp only [text, if_true, List.append_assoc]
    rfl
theorem text_items (l : Vals) (h : CleanAll l) (deep : Nat) : IsItems l (textAll true deep l) := by
  cases l with
  | nil => exact ws_nil
  | cons v l =>
    have hv := text_json v h.1 deep
    have hl := text_items l h.2 deep
    cases l with
    | nil => exact ⟨[], _, [], [], ws_nil, hv, ws_nil, by simp [textAll, Vals.len], .inl ⟨rfl, rfl⟩⟩
    | cons u l =>
      refine ⟨[], _, [], [44] ++ ([32] ++ textAll true deep (.cons u l)), ws_nil, hv, ws_nil, ?_,
        .inr ⟨Nat.succ_pos _, _, rfl, items_front hl ws_32⟩⟩
      simp [textAll, Vals.len]
theorem text_entries (l : Maps) (h : CleanMap l) (deep : Nat) : IsEntries l (textMap true deep l) := by
  cases l with
  | nil => exact ws_nil
  | cons k v l =>
    have hv := text_json v h.2.1 (deep + 1)
    have hl := text_entries l h.2.2 deep
    cases l with
    | nil =>
      refine ⟨indent (deep + 1), _, [], [32], _, [10], [], ws_indent _, quoted_self h.1, ws_nil, ws_32, hv, ws_10, ?_, .inl ⟨rfl, rfl⟩⟩
      simp [textMap, Maps.len]
    | cons k' u l =>
      refine ⟨indent (deep + 1), _, [], [32], _, [], [44] ++ ([10] ++ textMap true deep (.cons k' u l)), ws_indent _,
        quoted_self h.1, ws_nil, ws_32, hv, ws_nil, ?_, .inr ⟨Nat.succ_pos _, _, rfl, entries_front hl ws_10⟩⟩
      simp [textMap, Maps.len]
end

end Verif.C64
