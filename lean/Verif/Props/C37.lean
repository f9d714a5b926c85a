import Verif.Spec.C37
import Verif.Proofs.C37

namespace Verif.C37
open Config

/-- A SET that is not allowed fails and changes nothing, whatever happens to the
configuration file. -/
theorem C37_refused (online : Bool) (save : Res Unit) (cfg : List Var) (name : Bytes) (value : SetValue) :
    (¬ ∃ v w, named cfg name = some v ∧ Open online v ∧ Allowed online v value w) →
    (∃ m, (execute_set online save cfg name value).1 = .err m) ∧
      (execute_set online save cfg name value).2 = cfg := by
  have b3 := fun v => is_testBit v 3
  have b1 := fun v => is_testBit v 1
  have b0 := fun v => is_testBit v 0
  have b5 := fun v => is_testBit v 5
  simp only [Nat.reducePow] at b0 b1 b3 b5
  intro hno
  unfold execute_set
  cases hf : find cfg name with
  | none => exact ⟨⟨_, rfl⟩, rfl⟩
  | some v =>
    have hv : named cfg name = some v := by rw [← find_named, hf]
    dsimp only
    by_cases hs : v.is 8 = true
    · rw [if_pos hs]; exact ⟨⟨_, rfl⟩, rfl⟩
    · rw [if_neg hs]
      dsimp only
      by_cases h1 : (online && !v.is 2) = true
      · rw [if_pos h1]; exact ⟨⟨_, rfl⟩, rfl⟩
      · rw [if_neg h1]
        by_cases h2 : (!online && !v.is 1) = true
        · rw [if_pos h2]; exact ⟨⟨_, rfl⟩, rfl⟩
        · rw [if_neg h2]
          have hopen : Open online v := by
            refine ⟨by rw [← b3]; simpa using hs, ?_⟩
            rw [← b1, ← b0]
            cases online <;> simp_all
          have hna : ∀ w, ¬ Allowed online v value w := fun w hw => hno ⟨v, w, hv, hopen, hw⟩
          split
          · rename_i b ht; exact absurd (Allowed.bool ht) (hna _)
          · exact ⟨⟨_, rfl⟩, rfl⟩
          · rename_i n ht
            split
            · exact ⟨⟨_, rfl⟩, rfl⟩
            · rename_i hz
              refine absurd (Allowed.int ht ?_) (hna _)
              intro h5 h0
              rw [b5] at hz
              exact hz (by simp [h5, h0])
          · exact ⟨⟨_, rfl⟩, rfl⟩
          · rename_i s ht; exact absurd (Allowed.string ht) (hna _)
          · exact ⟨⟨_, rfl⟩, rfl⟩
          · exact ⟨⟨_, rfl⟩, rfl⟩

/-- SET obeys the flags for every table, phase, name and value, provided the
configuration file can be written. -/
theorem C37_obeys (online : Bool) (cfg : List Var) (name : Bytes) (value : SetValue) :
    Obeys online (.ok ()) cfg name value := by
  have b3 := fun v => is_testBit v 3
  have b1 := fun v => is_testBit v 1
  have b0 := fun v => is_testBit v 0
  have b5 := fun v => is_testBit v 5
  simp only [Nat.reducePow] at b0 b1 b3 b5
  constructor
  · intro v w hv ho ha
    rw [← find_named] at hv
    have hup := update_changed (w := w) hv
    unfold execute_set
    simp only [hv, b3, ho.1, Bool.false_eq_true, if_false]
    have hd : ∀ x : Bool, (if x = true then (Res.ok () : Res Unit) else .ok ()) = .ok () := by
      intro x; cases x <;> rfl
    have h1 : ¬ ((online && !v.is 2) = true) := by
      have := ho.2; cases online <;> simp_all
    have h2 : ¬ ((!online && !v.is 1) = true) := by
      have := ho.2; cases online <;> simp_all
    rw [if_neg h1, if_neg h2]
    cases ha with
    | bool ht => simp only [ht] at hup ⊢; exact ⟨hd _, hup⟩
    | int ht hz =>
      simp only [ht] at hup ⊢
      rw [if_neg]
      · exact ⟨hd _, hup⟩
      · rw [b5]
        rename_i n
        by_cases h : v.flags.testBit 5 = true
        · simp [hz h]
        · simp [h]
    | string ht => simp only [ht] at hup ⊢; exact ⟨hd _, hup⟩
  · exact C37_refused online _ cfg name value

/-- A failing SET changes nothing, except when the configuration file cannot be
written: before the database is open, and for variables that are not saved, the
outcome of that is irrelevant. -/
theorem C37_fails_clean_partial (online : Bool) (save : Res Unit) (cfg : List Var) (name : Bytes) (value : SetValue)
    (h : online = false ∨ (∀ v, named cfg name = some v → v.flags.testBit 4 = true)) :
    FailsClean online save cfg name value := by
  intro m hm
  have b4 := fun v => is_testBit v 4
  simp only [Nat.reducePow] at b4
  revert hm
  unfold execute_set
  cases hf : find cfg name with
  | none => exact fun _ => rfl
  | some v =>
    have hv : named cfg name = some v := by rw [← find_named, hf]
    have hsave : ¬ ((online && !v.is 16) = true) := by
      rcases h with h | h
      · simp [h]
      · simp [b4, h v hv]
    dsimp only
    split
    · exact fun _ => rfl
    · rename_i u hu
      have hu : u = v := by split at hu <;> simp_all
      subst hu
      simp only [hsave]
      repeat' split
      all_goals first
        | exact fun _ => rfl
        | (intro e; cases e; done)
        | simp_all

/-- C37 in full fails: when writing the configuration file fails, SET reports
the error but the variable has changed. -/
theorem C37_false : ¬ Full := by
  intro h
  have := (h true (.err "disk full") prepare (Decode.cstr "interval") (.int 1)).2 "disk full" rfl "disk full"
  have h2 := this (by decide +kernel)
  exact absurd h2 (by decide +kernel)

/-! The hypotheses are met: SET interval online, and a refused one. -/
example : named prepare (Decode.cstr "interval") = some (add "interval" .int 35 "" 3000000) := by decide +kernel
example : Open true (add "interval" .int 35 "" 3000000) := by unfold Open; decide +kernel
example : Allowed true (add "interval" .int 35 "" 3000000) (.int 5) { add "interval" .int 35 "" 3000000 with int := 5 } :=
  .int rfl (by decide)
example : (execute_set true (.ok ()) prepare (Decode.cstr "interval") (.int 5)).1 = .ok () := by decide +kernel
example : execute_set true (.ok ()) prepare (Decode.cstr "workers") (.int 5) =
    (.err "SET: variable cannot be changed online", prepare) := by decide +kernel
example : ∀ v, named prepare (Decode.cstr "ssn") = some v → v.flags.testBit 4 = true := by
  have e : named prepare (Decode.cstr "ssn") = some (add "ssn" .int 18 "" 0) := by decide +kernel
  intro v h; rw [e] at h; cases h; decide

end Verif.C37
