import Verif.Model.Reopen
import Verif.Spec.C35
import Verif.Spec.C45

/-! C83: an environment opens again as commands left it. -/
namespace Verif.C83
open Reopen Parse

/-- The two environments have the same clouds, storages, tiers and values of saved
variables.  What partitions there are is not compared. -/
structure Same (st st' : St) : Prop where
  clouds : st'.clouds = st.clouds
  sources : st'.storages.map (·.source) = st.storages.map (·.source)
  links : st'.storages.map (·.cloud) = st.storages.map (·.cloud)
  tiers : st'.tiers = st.tiers
  vars : ∀ name v, Config.find st.cfg name = some v → C35.Saved v →
    ∃ w, Config.find st'.cfg name = some w ∧ C35.Same v w

/-- The environment opens from its file as it is, whatever was set before. -/
def Opens (m : Machine) (st : St) : Prop :=
  ∀ fresh, C35.Table fresh → ∃ st', boot m fresh (some st.text) = .ok st' ∧ Same st st'

/-- A letter or a digit. -/
def Alnum (b : UInt8) : Prop := (48 ≤ b ∧ b ≤ 57) ∨ (65 ≤ b ∧ b ≤ 90) ∨ (97 ≤ b ∧ b ≤ 122)

/-- What every step is given: a text of bytes that an `int` can count, a uuid of the
generator, a key of 32 letters and digits; the variables of config_prepare. -/
def Given : Op → Prop
  | .execute text uuid key _ =>
    (∀ c ∈ text, c < 256) ∧ text.length + 5 < 2147483648 ∧ C45.Legal uuid ∧ key.length = 32 ∧ ∀ b ∈ key, Alnum b
  | .partitions _ => True
  | .restart fresh => C35.Table fresh

/-- C83 in full: a new environment starts, stays usable over any commands and restarts,
and opens as it was after any of them. -/
def Full : Prop :=
  ∀ m uuid, 4 ≤ m.depth → C45.Legal uuid → ∃ st, boot m (first uuid) none = .ok st ∧
    ∀ ops, (∀ op ∈ ops, Given op) → ∃ st', run m st ops = some st' ∧ Opens m st'

/-- The command of a text in an environment. -/
def Says (st : St) (text : List Nat) (uuid : Uuid) (key : Bytes) (c : Cmd) : Prop :=
  ∃ env, envOf st.cfg uuid key = .ok env ∧ parse env text = .ok c

/-- A string that is written into the file as it is and can be delimited there. -/
def Delimited (s : Bytes) : Prop := C35.delimited false s = true

/-- The strings that the command stores. -/
def Strings : Cmd → Prop
  | .set _ (.string s _) => Delimited (str s)
  | .cloudCreate _ c => Delimited c.login ∧ Delimited c.password ∧ Delimited c.url
  | .cloudAlter _ _ c _ => Delimited c.login ∧ Delimited c.password ∧ Delimited c.url
  | .storageCreate _ c => Delimited c.path ∧ Delimited c.encryption_key
  | .storageAlter _ _ c _ => Delimited c.path ∧ Delimited c.encryption_key
  | _ => True

/-- The rest of what a command must keep to: numbers that are read back, no s3 cloud
left without login, password or url, a storage gets a cloud only if it is there and
takes it, a renamed storage is in the pipeline once, and not too many objects. -/
def Sensible (st : St) (o : Settings.Outside) : Cmd → Prop
  | .set _ (.int n) => C35.SmallInt (toS64 n)
  | .cloudCreate _ _ => st.clouds.length + 1 < 2147483648
  | .cloudAlter _ _ c mask => ∀ d ∈ st.clouds, d.name = c.name → d.type = str (Lex.bytes "s3") →
      (mask.testBit 2 = true → c.login ≠ []) ∧ (mask.testBit 3 = true → c.password ≠ []) ∧ (mask.testBit 4 = true → c.url ≠ [])
  | .storageCreate _ _ => st.storages.length + 1 < 2147483648
  | .storageAlter _ _ c mask => mask.testBit 3 = true → c.cloud = [] ∨ ((∃ d ∈ st.clouds, d.name = c.cloud) ∧ o.attach = false)
  | .storageRename _ n _ => (st.tiers.filter fun t => t.name == str n).length ≤ 1
  | .pipelineAlter l => ∀ t ∈ l, C35.SmallInt t.partitions ∧ C35.SmallInt t.size ∧ C35.SmallInt t.events ∧ C35.SmallInt t.duration
  | _ => True

/-- Steps to which the theorem applies: commands whose text has no single quote, or
whose strings can be delimited anyway, and which are sensible. -/
def Careful (st : St) : Op → Prop
  | .execute text uuid key o =>
    (39 ∉ text ∨ ∀ c, Says st text uuid key c → Strings c) ∧ ∀ c, Says st text uuid key c → Sensible st o c
  | _ => True

/-- All steps in order. -/
def Carefully (m : Machine) : St → List Op → Prop
  | _, [] => True
  | st, op :: ops => Careful st op ∧ ∀ st', step m st op = some st' → Carefully m st' ops

end Verif.C83
