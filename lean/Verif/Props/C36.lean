import Verif.Proofs.C36
import Verif.Proofs.JsonTorn

namespace Verif.C36
open Config

/-- Outside the time between the rename of the old file and the end of the last
write, a crash leaves the old or the new configuration for the next start.
Missing from the full property: a crash in between (see `C36_false`). -/
theorem C36_crash_partial (fp : Bytes → Option (Nat × Nat)) (fmt : Nat → Bytes) (d : Nat) (fresh : List Var)
    (old new : Bytes) (chunks : List Bytes) (leftover : Option Bytes) (k : Nat) (hc : chunks.flatten = new)
    (hk : k ≤ untilRename leftover ∨ untilWritten leftover chunks ≤ k) :
    ∃ fs, saveCrash ⟨some old, leftover⟩ chunks k = .ok fs ∧ Finds fp fmt d fresh old new fs := by
  refine ⟨_, crash_after old leftover chunks k, ?_⟩
  unfold after
  rcases hk with hk | hk
  · rw [if_pos hk]
    exact .inl (reload_cur _ _)
  · have : untilRename leftover + 2 ≤ untilWritten leftover chunks := by unfold untilWritten; omega
    rw [if_neg (by omega), if_neg (by omega)]
    right
    split
    · have h : k - untilRename leftover - 2 = chunks.length := by unfold untilWritten at *; omega
      rw [h, List.take_of_length_le (by omega), hc]
      exact reload_cur _ _
    · rw [hc]

/-- Whatever the moment of the crash, one of the two files still holds the
complete old or the complete new text, although the next start may not look at
it. -/
theorem C36_copy_kept (old new : Bytes) (chunks : List Bytes) (leftover : Option Bytes) (k : Nat) (hc : chunks.flatten = new) :
    ∃ fs, saveCrash ⟨some old, leftover⟩ chunks k = .ok fs ∧
      (fs.cur = some old ∨ fs.old = some old ∨ fs.cur = some new) := by
  refine ⟨_, crash_after old leftover chunks k, ?_⟩
  unfold after
  repeat' split
  all_goals simp [hc]

/-- Whatever the moment of the crash, the next start finds the old or the new
configuration, or there is no file, or it refuses to start: a half-written file
is never taken for a configuration.  The configuration being saved is one of
those that C35 restores. -/
theorem C36_never_half (fp : Bytes → Option (Nat × Nat)) (fmt : Nat → Bytes) (d : Nat) (fresh cfg1 : List Var)
    (old new : Bytes) (chunks : List Bytes) (leftover : Option Bytes) (k : Nat) (hd : 2 ≤ d) (ht : C35.Table cfg1)
    (hv : ∀ v ∈ cfg1, C35.Saved v →
      C35.Valid d (fun s => C35.delimited false s = true) C35.SmallInt C35.Plain v)
    (hs : saveText fmt d cfg1 = .ok new) (hc : chunks.flatten = new) :
    ∃ fs, saveCrash ⟨some old, leftover⟩ chunks k = .ok fs ∧
      (Finds fp fmt d fresh old new fs ∨ (fs.cur = none ∧ fs.old = some old) ∨
        (fs.old = some old ∧ ∃ m, open_ fp fmt d fresh fs = .err m)) := by
  by_cases hk : k ≤ untilRename leftover ∨ untilWritten leftover chunks ≤ k
  · obtain ⟨fs, h1, h2⟩ := C36_crash_partial fp fmt d fresh old new chunks leftover k hc hk
    exact ⟨fs, h1, .inl h2⟩
  · refine ⟨_, crash_after old leftover chunks k, ?_⟩
    unfold after
    rw [if_neg (by omega)]
    split
    · exact .inr (.inl ⟨rfl, rfl⟩)
    · rw [if_pos (by omega)]
      by_cases he : (chunks.take (k - untilRename leftover - 2)).flatten = new
      · rw [he]
        exact .inl (.inr (reload_cur _ _))
      · refine .inr (.inr ⟨rfl, open_cut hd ht hv hs ?_ he⟩)
        rw [← hc]
        exact ⟨(chunks.drop (k - untilRename leftover - 2)).flatten, by
          rw [← List.flatten_append, List.take_append_drop]⟩

/-- Without a crash the new text is the only file. -/
theorem C36_completes (old new : Bytes) (chunks : List Bytes) (leftover : Option Bytes) (hc : chunks.flatten = new) :
    runCalls ⟨some old, leftover⟩ (saveCalls ⟨some old, leftover⟩ chunks) = .ok ⟨some new, none⟩ := by
  have h := crash_after old leftover chunks (untilWritten leftover chunks + 1)
  unfold saveCrash at h
  rw [List.take_of_length_le] at h
  · rw [h, after, if_neg (by unfold untilWritten; omega), if_neg (by unfold untilWritten; omega), if_neg (by omega), hc]
  · unfold saveCalls untilWritten untilRename
    cases leftover <;> simp <;> omega

/-- `prepare` with the interval `n`. -/
def interval (n : Nat) : List Var :=
  update prepare (Decode.cstr "interval") { add "interval" .int 35 "" 0 with int := n }

def textOf (n : Nat) : Bytes :=
  match saveText (fun _ => []) 4 (interval n) with
  | .ok t => t
  | _ => []

/-- C36 in full fails: interval 5 is saved, interval 7 is being saved, and the
process dies after the rename.  The next start has the default interval. -/
theorem C36_false : ¬ Full := by
  intro h
  obtain ⟨fs, h1, h2⟩ := h (fun _ => none) (fun _ => []) 4 prepare (interval 5) (interval 7) (textOf 5) (textOf 7)
    [textOf 7] none 1 (by decide +kernel) (by decide +kernel) (by simp)
  rw [crash_after] at h1
  have h1 := Res.ok.inj h1
  subst h1
  revert h2
  unfold Finds
  have e1 : reload (fun _ => none) (fun _ => []) 4 prepare (after (textOf 5) none [textOf 7] 1) = .ok prepare := by
    decide +kernel
  have e2 : reload (fun _ => none) (fun _ => []) 4 prepare ⟨some (textOf 5), none⟩ ≠ .ok prepare := by decide +kernel
  have e3 : reload (fun _ => none) (fun _ => []) 4 prepare ⟨some (textOf 7), none⟩ ≠ .ok prepare := by decide +kernel
  rw [e1]
  rintro (h | h)
  · exact e2 h.symm
  · exact e3 h.symm

/-! The hypotheses of `C36_never_half` are met by the configuration with interval
7, and a cut in the middle of its text is a real one. -/
example : C35.Table (interval 7) ∧ ∀ v ∈ interval 7, C35.Saved v →
    C35.Valid 4 (fun s => C35.delimited false s = true) C35.SmallInt C35.Plain v := by
  refine ⟨by unfold C35.Table; decide +kernel, ?_⟩
  intro v hv _
  have hb : ∀ v ∈ interval 7, v.int < 9223372036854775000 ∧ v.str.length + 5 < 2147483648 ∧
      C35.delimited false v.str = true ∧ (v.type = .bool → v.int = 0 ∨ v.int = 1) ∧ (v.type = .data → v.str = []) := by
    decide +kernel
  obtain ⟨h1, h2, h3, h4, h5⟩ := hb v hv
  unfold C35.Valid
  cases ht : v.type with
  | bool => exact h4 ht
  | int => exact ⟨by omega, by unfold C35.SmallInt toS64 wrapS64; omega⟩
  | string => exact ⟨h2, h3⟩
  | data => exact ⟨.null, .inl ⟨h5 ht, rfl⟩, by simp [C34.Fits], trivial, by decide⟩
example : open_ (fun _ => none) (fun _ => []) 4 prepare ⟨some ((textOf 7).take 300), some (textOf 5)⟩ =
    .err "json parse error" := by decide +kernel

/-! A saved and reloaded configuration is not the default one, and the crash
points of the theorem include real ones. -/
example : reload (fun _ => none) (fun _ => []) 4 prepare ⟨some (textOf 5), none⟩ ≠ reload (fun _ => none) (fun _ => []) 4 prepare ⟨some (textOf 7), none⟩ := by
  decide +kernel
example : untilWritten (some [1]) [[2], [3]] = 5 ∧ (saveCalls ⟨some [0], some [1]⟩ [[2], [3]]).length = 6 := by decide

end Verif.C36
