import Verif.Model.Settings
import Verif.Spec.C58

/-! C80: changing the settings of storages never makes their data unreadable, nor a
storage unwritable; ALTER changes the settings it names and no others. -/
namespace Verif.C80
open Settings Parse

/-- Every partition file can be read now, the environment can be opened again, and
every partition file can be read then. -/
def Good (st : St) : Prop :=
  (∀ f ∈ st.disk, read st f.min = .file) ∧
  ∃ st', restart st = .ok st' ∧ st'.disk = st.disk ∧ ∀ f ∈ st'.disk, read st' f.min = .file

/-- Every partition can be refreshed, and moved to any storage. -/
def Writable (st : St) : Prop :=
  (∀ s ∈ st.storages, ∀ min ∈ s.parts, (refresh st min none).1 = .ok ()) ∧
  ∀ s ∈ st.storages, ∀ t ∈ st.storages, ∀ min ∈ s.parts, (refresh st min (some t.source.name)).1 = .ok ()

/-- The uuid is that of a storage. -/
def Used (st : St) (u : Uuid) : Prop := ∃ s ∈ st.storages, s.source.uuid = u

/-- Every storage is in the configuration file as it is; a new environment has none
there but main as it is made. -/
def Saved (st : St) : Prop :=
  ∀ s ∈ st.storages, s.source ∈ st.conf.sources ∨ (st.conf.sources = [] ∧ s.source = main st.uuid)

/-- What the partial property asks of a step: new storages have new uuids, ALTER does
not name a cloud that is missing or cannot be attached, and partitions are written only
while the configuration file is up to date. -/
def Careful (st : St) : Op → Prop
  | .execute env text o => ∀ cmd, parse env text = .ok cmd → match cmd with
    | .storageCreate _ c => ¬ Used st c.uuid
    | .storageAlter _ _ c mask => mask.testBit 3 = true → c.cloud = [] ∨ (c.cloud ∈ st.clouds ∧ o.attach = false)
    | _ => True
  | .refresh _ _ => Saved st
  | _ => True

/-- All steps are careful. -/
def Carefully : St → List Op → Prop
  | _, [] => True
  | st, op :: ops => Careful st op ∧ Carefully (step st op) ops

/-- Encryption has a key of 32 bytes. -/
def Keyed (c : Source) : Prop := c.encryption = [] ∨ c.encryption = str (Lex.bytes "none") ∨ c.encryption_key.length = 32

/-- What the partial property on writing asks of a step: the key made for new storages
has 32 bytes, and what ALTER leaves is keyed. -/
def Keys (st : St) : Op → Prop
  | .execute env text _ => env.key.length = 32 ∧ ∀ ie n c mask, parse env text = .ok (.storageAlter ie n c mask) →
      ∀ s ∈ st.storages, s.source.name = c.name →
        Keyed { s.source with
          encryption := if mask.testBit 11 then c.encryption else s.source.encryption
          encryption_key := if mask.testBit 12 then c.encryption_key else s.source.encryption_key }
  | _ => True

@[inherit_doc Keys] def Keysly : St → List Op → Prop
  | _, [] => True
  | st, op :: ops => Keys st op ∧ Keysly (step st op) ops

/-- The settings of a storage by the names of their options. -/
inductive Setting where
  | bytes (b : Bytes)
  | bool (b : Bool)
  | int (i : Int)
deriving DecidableEq, Repr

/-- The settings which ALTER can change. -/
def settings : List (String × (Source → Setting)) :=
  [("path", fun c => .bytes c.path), ("cloud", fun c => .bytes c.cloud),
   ("cloud_drop_local", fun c => .bool c.cloud_drop_local), ("sync", fun c => .bool c.sync), ("crc", fun c => .bool c.crc),
   ("refresh_wm", fun c => .int c.refresh_wm), ("region_size", fun c => .int c.region_size),
   ("compression", fun c => .bytes c.compression), ("compression_level", fun c => .int c.compression_level),
   ("encryption", fun c => .bytes c.encryption), ("encryption_key", fun c => .bytes c.encryption_key)]

/-- An ALTER that succeeds on a storage that is there gives it the settings that are
named among the options `l`, as the options say (`C58.Options`, from the left). -/
def Exact : Prop :=
  ∀ (env : Env) (st : St) (text : List Nat) (o : Outside) (ie : Bool) (n : List Nat) (c : Source) (mask : Nat)
    (l : List C58.Item) (s : Storage), parse env text = .ok (.storageAlter ie n c mask) →
    C58.Options (C58.StorageOpt C58.code) { Source.allocate with name := str n } l c mask →
    (execute env st text o).1 = .ok () → find st.storages (str n) = some s →
    ∃ s', find (execute env st text o).2.storages (str n) = some s' ∧
      ∀ p ∈ settings, .word (Lex.bytes p.1) ∈ l → p.2 s'.source = p.2 c

/-- The full property. -/
def Full : Prop := (∀ uuid ops, Good (run (start uuid) ops) ∧ Writable (run (start uuid) ops)) ∧ Exact

/-- The numbers are within 32 bits. -/
def Fits (c : Source) : Prop :=
  (-2147483648 ≤ c.refresh_wm ∧ c.refresh_wm < 2147483648) ∧ (-2147483648 ≤ c.region_size ∧ c.region_size < 2147483648) ∧
  (-2147483648 ≤ c.compression_level ∧ c.compression_level < 2147483648)

end Verif.C80
