import Verif.Model.Show
import Verif.Spec.C35

/-! C63: SHOW does not reveal passwords and encryption keys.

Secrets are the password of a cloud and the encryption key of a storage.  An
answer does not reveal them if it is the same for all secrets: two states that
differ in nothing else are not told apart. -/
namespace Verif.C63
open Data Decode Show

/-- Everything about a cloud but its password. -/
def openCloud (c : CloudConfig) : CloudConfig := { c with password := [] }

/-- Everything about a storage but its encryption key. -/
def openStorage (s : Storage) : Storage := { s with source := { s.source with encryption_key := [] } }

/-- The variables in which clouds and storages are saved. -/
def Secret (name : Bytes) : Prop := name = cstr "clouds" ∨ name = cstr "storages"

instance (name : Bytes) : Decidable (Secret name) := inferInstanceAs (Decidable (_ ∨ _))

/-- Everything about a variable but the value of one of these. -/
def openVar (v : Config.Var) : Config.Var := if Secret v.name then { v with str := [] } else v

/-- The two states differ in nothing but secrets. -/
structure Alike (w w' : World) : Prop where
  mem : w.mem = w'.mem
  wal : w.wal = w'.wal
  part : w.part = w'.part
  map : w.map = w'.map
  tiers : w.tiers = w'.tiers
  clouds : w.clouds.map openCloud = w'.clouds.map openCloud
  storages : w.storages.map openStorage = w'.storages.map openStorage
  vars : w.vars.map openVar = w'.vars.map openVar

/-- The configuration is that of config_prepare, and the two variables hold what
cloud_mgr_save (cloud/cloud/cloud_mgr.c:50-66) and storage_mgr_save
(engine/storage/storage_mgr.c:40-57) put there. -/
structure Saved (w : World) : Prop where
  table : C35.Table w.vars
  clouds : ∀ v ∈ w.vars, v.name = cstr "clouds" →
    v.str = data_write_array w.clouds.length ++ w.clouds.flatMap CloudConfig.write
  storages : ∀ v ∈ w.vars, v.name = cstr "storages" →
    v.str = data_write_array w.storages.length ++ w.storages.flatMap (fun s => s.source.write)

/-- The command asks for one of the two variables. -/
def Asks (op : Parse.ShowOp) : Prop := op.type = .name ∧ ∃ name, string_of op.name = .ok name ∧ Secret name

/-- C63 in full: no SHOW command tells apart states that differ in secrets. -/
def Full : Prop :=
  ∀ fmt depth env text ops w w', Parse.parse env text = .ok (.show ops) → Saved w → Saved w' → Alike w w' →
    execute_show fmt depth w ops = execute_show fmt depth w' ops

end Verif.C63
