import Verif.Spec.C36
import Verif.Proofs.Config

/-! Crashes of config_save (C36). -/
namespace Verif.C36
open Config

theorem runCalls_append (fs : Files) (a b : List Sys) :
    runCalls fs (a ++ b) = (runCalls fs a).bind fun fs => runCalls fs b := by
  induction a generalizing fs with
  | nil => rfl
  | cons c a ih =>
    simp only [List.cons_append, runCalls]
    cases c.run fs with
    | ok f => simp only [Res.bind_ok]; exact ih f
    | err m => rfl
    | abort m => rfl
    | ub m => rfl

theorem run_writes (t : Bytes) (old : Option Bytes) (chunks : List Bytes) :
    runCalls ⟨some t, old⟩ (chunks.map .write) = .ok ⟨some (t ++ chunks.flatten), old⟩ := by
  induction chunks generalizing t with
  | nil => simp [runCalls]
  | cons c cs ih => simp [runCalls, Sys.run, ih]

/-- The files after `k` calls. -/
def after (old : Bytes) (leftover : Option Bytes) (chunks : List Bytes) (k : Nat) : Files :=
  if k ≤ untilRename leftover then ⟨some old, if k = 0 then leftover else none⟩
  else if k = untilRename leftover + 1 then ⟨none, some old⟩
  else if k ≤ untilWritten leftover chunks then ⟨some (chunks.take (k - untilRename leftover - 2)).flatten, some old⟩
  else ⟨some chunks.flatten, none⟩

theorem crash_after (old : Bytes) (leftover : Option Bytes) (chunks : List Bytes) (k : Nat) :
    saveCrash ⟨some old, leftover⟩ chunks k = .ok (after old leftover chunks k) := by
  -- the calls from the rename on
  have key : ∀ j (lo : Option Bytes),
      runCalls ⟨some old, lo⟩ (((.rename : Sys) :: .create :: (chunks.map .write ++ [.unlinkOld])).take j) =
        .ok (if j = 0 then ⟨some old, lo⟩ else if j = 1 then ⟨none, some old⟩
          else if j ≤ 2 + chunks.length then ⟨some (chunks.take (j - 2)).flatten, some old⟩
          else ⟨some chunks.flatten, none⟩) := by
    intro j lo
    match j with
    | 0 => rfl
    | 1 => rfl
    | j + 2 =>
      simp only [List.take_succ_cons, runCalls, Sys.run, Res.bind_ok]
      rw [List.take_append, List.length_map, ← List.map_take, runCalls_append, run_writes, Res.bind_ok, List.nil_append]
      rw [if_neg (by omega), if_neg (by omega)]
      by_cases hj : j ≤ chunks.length
      · rw [if_pos (by omega), Nat.sub_eq_zero_of_le hj]
        rfl
      · rw [if_neg (by omega), List.take_of_length_le (by omega)]
        obtain ⟨e, he⟩ : ∃ e, j - chunks.length = e + 1 := ⟨j - chunks.length - 1, by omega⟩
        rw [he, List.take_of_length_le (by simp)]
        rfl
  unfold saveCrash saveCalls after untilWritten untilRename
  cases leftover with
  | none =>
    have := key k none
    simp only [Option.isSome_none, Bool.false_eq_true, if_false, List.nil_append, List.cons_append, Nat.zero_add] at this ⊢
    rw [this]
    congr 1
    repeat' split
    all_goals first
      | rfl
      | (exfalso; omega)
  | some t =>
    simp only [Option.isSome_some, if_true, List.cons_append, List.nil_append]
    match k with
    | 0 => rfl
    | k + 1 =>
      have := key k none
      simp only [List.take_succ_cons, runCalls]
      have hr : Sys.run ⟨some old, some t⟩ .unlinkOld = .ok ⟨some old, none⟩ := rfl
      rw [hr, Res.bind_ok, this]
      congr 1
      have e : k + 1 - 1 - 2 = k - 2 := by omega
      rw [e]
      repeat' split
      all_goals first
        | rfl
        | (exfalso; omega)

theorem reload_cur {fp : Bytes → Option (Nat × Nat)} {fmt : Nat → Bytes} {d : Nat} {fresh : List Var} (t : Bytes) (o : Option Bytes) :
    reload fp fmt d fresh ⟨some t, o⟩ = reload fp fmt d fresh ⟨some t, none⟩ := by
  unfold reload open_
  dsimp only
  split
  · rfl
  · cases set fp d fresh t <;> rfl

end Verif.C36
