import Verif.Model.Config

/-! C36: a crash while saving the configuration. -/
namespace Verif.C36
open Config

/-- What the next start makes of the files: the configuration it runs with. -/
def reload (fp : Bytes → Option (Nat × Nat)) (fmt : Nat → Bytes) (d : Nat) (fresh : List Var) (fs : Files) : Res (List Var) :=
  (open_ fp fmt d fresh fs).bind fun r => .ok r.1

/-- The next start finds the old or the new configuration. -/
def Finds (fp : Bytes → Option (Nat × Nat)) (fmt : Nat → Bytes) (d : Nat) (fresh : List Var) (old new : Bytes) (fs : Files) : Prop :=
  reload fp fmt d fresh fs = reload fp fmt d fresh ⟨some old, none⟩ ∨
  reload fp fmt d fresh fs = reload fp fmt d fresh ⟨some new, none⟩

/-- C36 in full: the file holds `old` (the text of a configuration), `new` is
saved over it, and the process dies after `k` system calls. -/
def Full : Prop :=
  ∀ fp fmt d fresh cfg0 cfg1 old new chunks leftover k,
    saveText fmt d cfg0 = .ok old → saveText fmt d cfg1 = .ok new → chunks.flatten = new →
    ∃ fs, saveCrash ⟨some old, leftover⟩ chunks k = .ok fs ∧ Finds fp fmt d fresh old new fs

/-- The number of calls up to the one that removes the name of the old file. -/
def untilRename (leftover : Option Bytes) : Nat := if leftover.isSome then 1 else 0

/-- The number of calls up to the end of the last write. -/
def untilWritten (leftover : Option Bytes) (chunks : List Bytes) : Nat := untilRename leftover + 2 + chunks.length

end Verif.C36
