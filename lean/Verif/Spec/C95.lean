import Verif.Model.Reach
import Verif.Spec.C83

/-! C95: what was put into a cloud is found there. -/
namespace Verif.C95
open Reopen Reach Parse

/-- Every partition that is in the cloud is found where it is looked for, with the
content it was given, unless its removal was asked for. -/
def Found (w : World) : Prop :=
  ∀ s ∈ w.st.storages, ∀ min ∈ s.parts, w.up min = true → w.asked min = false → fetch w s min = .ok (w.file min)

/-- No partition is in the cloud of two storages, or of none. -/
def Single (w : World) : Prop :=
  (∀ (i j : Nat) (s t : Settings.Storage), w.st.storages[i]? = some s → w.st.storages[j]? = some t → ∀ min ∈ s.parts, min ∈ t.parts → i = j) ∧
  ∀ s ∈ w.st.storages, ∀ min ∈ s.parts, w.up min = true → ∃ p, address w s min = .ok p

/-- The clouds of the storages are there. -/
def Linked (st : Reopen.St) : Prop := ∀ s ∈ st.storages, ∀ n, s.cloud = some n → ∃ c, find_cloud st.clouds n = some c

/-- C95 in full. -/
def Full : Prop :=
  ∀ m st stored ops, Linked st → ∃ w, run m (start st stored) ops = .ok w ∧ Found w ∧ Single w

/-- What the partial property asks of a step: ALTER CLOUD does not name the url of a
cloud that has partitions, unless the cloud is a mock. -/
def Careful (w : World) : Reach.Op → Prop
  | .execute text uuid key _ => ∀ ie n c mask, C83.Says w.st text uuid key (.cloudAlter ie n c mask) →
      mask.testBit 4 = true → ∀ d, find_cloud w.st.clouds c.name = some d → d.type = str (Lex.bytes "mock") ∨
        ∀ s ∈ w.st.storages, s.cloud = some c.name → ∀ min ∈ s.parts, w.up min = false
  | _ => True

/-- All steps are careful. -/
def Carefully (m : Machine) : World → List Reach.Op → Prop
  | _, [] => True
  | w, op :: ops => Careful w op ∧ ∀ w', step m w op = .ok w' → Carefully m w' ops

end Verif.C95
