import Verif.Proofs.ParseOptions

/-! The tables of options against the grammar of C58. -/
namespace Verif.C58
open Lex Parse

theorem number_code {n : Nat} {i : Int} : Number code n i ↔ i = toS64 n := by
  unfold Number code
  by_cases hn : n < 9223372036854775808
  · have e : toS64 n = n := wrapS64_id (by omega) (by omega)
    rw [e]
    constructor
    · rintro (⟨_, h⟩ | ⟨_, h, _⟩)
      · exact h
      · omega
    · intro h; exact Or.inl ⟨hn, h⟩
  · constructor
    · rintro (⟨h, _⟩ | ⟨_, _, h⟩)
      · exact absurd h hn
      · exact h
    · intro h; exact Or.inr ⟨rfl, by omega, h⟩

theorem valueOf_number {n : Nat} {i : Int} (h : Number code n i) : ValueOf .int (.int i) (.int n) := by
  rw [number_code.1 h]
  exact .int

theorem cloud_table : Table cloudTable ["cloud", "debug"] CloudOpt where
  sound := by
    intro o ho c v c' a hv hs
    simp only [cloudTable, List.mem_cons, List.not_mem_nil, or_false] at ho
    rcases ho with rfl | rfl | rfl | rfl | rfl | rfl | rfl <;> cases hv <;>
      simp only [Option.some.injEq] at hs <;> subst hs
    · exact .type
    · exact .url
    · exact .login
    · exact .password
    · exact .access_key
    · exact .secret_key
    · rename_i h; exact .debug h
  complete := by
    intro c s a c' b h
    cases h with
    | type => exact ⟨_, _, rfl, rfl, .string, rfl, Or.inl (by decide +kernel)⟩
    | url => exact ⟨_, _, rfl, rfl, .string, rfl, Or.inl (by decide +kernel)⟩
    | login => exact ⟨_, _, rfl, rfl, .string, rfl, Or.inl (by decide +kernel)⟩
    | password => exact ⟨_, _, rfl, rfl, .string, rfl, Or.inl (by decide +kernel)⟩
    | access_key => exact ⟨_, _, rfl, rfl, .string, rfl, Or.inl (by decide +kernel)⟩
    | secret_key => exact ⟨_, _, rfl, rfl, .string, rfl, Or.inl (by decide +kernel)⟩
    | debug h => exact ⟨_, _, rfl, rfl, .bool h, rfl, Or.inr ⟨"debug", by simp, by decide +kernel⟩⟩

theorem compressionKnown_iff {s : List Nat} :
    compressionKnown s = true ↔ s = [] ∨ s = bytes "none" ∨ s = bytes "zstd" ∨ s = bytes "lz4" := by
  simp only [compressionKnown, Bool.or_eq_true, beq_iff_eq, or_assoc]

theorem encryptionOf_iff {s : Bytes} : encryptionOf s ≠ -1 ↔ s = [] ∨ s = str (bytes "none") ∨ s = str (bytes "aes") := by
  unfold encryptionOf
  by_cases h1 : s = []
  · simp [h1]
  · by_cases h2 : s = str (bytes "none")
    · rw [if_neg h1, if_pos h2]; simp [h2]
    · by_cases h3 : s = str (bytes "aes")
      · rw [if_neg h1, if_neg h2, if_pos h3]; simp [h3]
      · rw [if_neg h1, if_neg h2, if_neg h3]; simp [h1, h2, h3]

theorem encryptionOf_zero {s : Bytes} (h : s = [] ∨ s = str (bytes "none") ∨ s = str (bytes "aes")) :
    encryptionOf s ≠ 0 ↔ s ≠ [] ∧ s ≠ str (bytes "none") := by
  unfold encryptionOf
  rcases h with rfl | rfl | rfl
  · simp
  · simp [str, bytes]
  · rw [if_neg (by simp [str, bytes]), if_neg (by decide +kernel), if_pos rfl]
    simp [str, bytes]

theorem storage_table : Table storageTable ["cloud"] (StorageOpt code) where
  sound := by
    intro o ho c v c' a hv hs
    simp only [storageTable, List.mem_cons, List.not_mem_nil, or_false] at ho
    rcases ho with rfl | rfl | rfl | rfl | rfl | rfl | rfl | rfl | rfl | rfl | rfl | rfl <;> cases hv <;> dsimp only at hs
    · rw [Option.map_eq_some_iff] at hs
      obtain ⟨u, h1, rfl⟩ := hs
      exact .uuid h1
    · simp only [Option.some.injEq] at hs; subst hs; exact .path
    · simp only [Option.some.injEq] at hs; subst hs; exact .cloud
    · rename_i h; simp only [Option.some.injEq] at hs; subst hs; exact .drop_local h
    · rename_i h; simp only [Option.some.injEq] at hs; subst hs; exact .sync h
    · rename_i h; simp only [Option.some.injEq] at hs; subst hs; exact .crc h
    · simp only [Option.some.injEq] at hs; subst hs; exact .refresh_wm (number_code.2 rfl)
    · split at hs
      · simp at hs
      · rename_i hne
        simp only [Option.some.injEq] at hs; subst hs; exact .region_size (number_code.2 rfl) hne
    · split at hs
      · rename_i hk
        simp only [Option.some.injEq] at hs; subst hs; exact .compression (compressionKnown_iff.1 hk)
      · simp at hs
    · simp only [Option.some.injEq] at hs; subst hs; exact .level (number_code.2 rfl)
    · split at hs
      · simp at hs
      · rename_i hne
        simp only [Option.some.injEq] at hs; subst hs; exact .encryption (encryptionOf_iff.1 hne)
    · split at hs
      · simp at hs
      · rename_i s hne
        simp only [Option.some.injEq] at hs
        subst hs
        refine .encryption_key ?_
        by_cases he : s = []
        · exact Or.inl he
        · exact Or.inr (Classical.byContradiction fun hl => hne ⟨he, hl⟩)
  complete := by
    intro c s a c' b h
    cases h with
    | uuid h => exact ⟨_, _, rfl, rfl, .string, by dsimp only; rw [h]; rfl, Or.inl (by decide +kernel)⟩
    | path => exact ⟨_, _, rfl, rfl, .string, rfl, Or.inl (by decide +kernel)⟩
    | cloud => exact ⟨_, _, rfl, rfl, .string, rfl, Or.inr ⟨"cloud", by simp, by decide +kernel⟩⟩
    | drop_local h => exact ⟨_, _, rfl, rfl, .bool h, rfl, Or.inl (by decide +kernel)⟩
    | sync h => exact ⟨_, _, rfl, rfl, .bool h, rfl, Or.inl (by decide +kernel)⟩
    | crc h => exact ⟨_, _, rfl, rfl, .bool h, rfl, Or.inl (by decide +kernel)⟩
    | refresh_wm h => exact ⟨_, _, rfl, rfl, valueOf_number h, rfl, Or.inl (by decide +kernel)⟩
    | region_size h hne =>
      exact ⟨_, _, rfl, rfl, valueOf_number h, by dsimp only; rw [if_neg hne], Or.inl (by decide +kernel)⟩
    | compression h =>
      exact ⟨_, _, rfl, rfl, .string, by dsimp only; rw [if_pos (compressionKnown_iff.2 h)], Or.inl (by decide +kernel)⟩
    | level h => exact ⟨_, _, rfl, rfl, valueOf_number h, rfl, Or.inl (by decide +kernel)⟩
    | encryption h =>
      exact ⟨_, _, rfl, rfl, .string, by dsimp only; rw [if_neg (encryptionOf_iff.2 h)], Or.inl (by decide +kernel)⟩
    | encryption_key h =>
      have hn : ¬ (_ ∧ _) := fun (hc : _ ≠ [] ∧ _ ≠ 32) => h.elim hc.1 hc.2
      exact ⟨_, _, rfl, rfl, .string, by dsimp only; rw [if_neg hn], Or.inl (by decide +kernel)⟩

theorem tier_table : Table tierTable ["partitions"] (TierOpt code) where
  sound := by
    intro o ho c v c' a hv hs
    simp only [tierTable, List.mem_cons, List.not_mem_nil, or_false] at ho
    rcases ho with rfl | rfl | rfl | rfl <;> cases hv <;> simp only [Option.some.injEq] at hs <;> subst hs
    · exact .partitions (number_code.2 rfl)
    · exact .size (number_code.2 rfl)
    · exact .events (number_code.2 rfl)
    · exact .duration (number_code.2 rfl)
  complete := by
    intro c s a c' b h
    cases h with
    | partitions h =>
      exact ⟨_, _, rfl, rfl, valueOf_number h, rfl, Or.inr ⟨"partitions", by simp, by decide +kernel⟩⟩
    | size h => exact ⟨_, _, rfl, rfl, valueOf_number h, rfl, Or.inl (by decide +kernel)⟩
    | events h => exact ⟨_, _, rfl, rfl, valueOf_number h, rfl, Or.inl (by decide +kernel)⟩
    | duration h => exact ⟨_, _, rfl, rfl, valueOf_number h, rfl, Or.inl (by decide +kernel)⟩

end Verif.C58
