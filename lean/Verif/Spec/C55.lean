import Verif.Model.Leftover
import Verif.Spec.C15

/-! C55: a new partition file contains nothing of an earlier one. -/
namespace Verif.C55
open Left Io

/-- After any history, the file of a successful refresh is what it wrote. -/
def Full : Prop := ∀ (h : List Step) (pieces : List Bytes), (run {} (h ++ [.done pieces])).id = some pieces.flatten

/-- The most bytes a failed refresh wrote since the last successful one or the
last start; `n` is that number for what came before. -/
def longest (n : Nat) : List Step → Nat
  | [] => n
  | .failed l :: h => longest (max n l.flatten.length) h
  | .done _ :: h => longest 0 h
  | .restart :: h => longest 0 h

end Verif.C55
