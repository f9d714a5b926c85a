import Verif.Spec.C38

/-! C40: storages and clouds in use cannot be removed, renames keep references. -/
namespace Verif.C40
open Sto

/-- A history: commands (with a failure of saving the configuration file),
operations on partitions, and restarts from the configuration file. -/
inductive Step where
  | cmd (saveFails : Bool) (c : Cmd)
  | part (op : C38.Op)
  | reopen

/-- The state after a step; a restart that fails leaves no database. -/
def step (db : Db) : Step → Option Db
  | .cmd f c => some (execute f db c).2
  | .part op => some (C38.step db op)
  | .reopen =>
    match open_ db.file with
    | .ok db => some db
    | _ => none

def run (db : Db) : List Step → Option Db
  | [] => some db
  | s :: l => (step db s).bind fun db => run db l

/-- The names of clouds in a command are names, not empty: the parser takes them
from name tokens. -/
def Named : Step → Prop
  | .cmd _ (.cloudCreate n _ _) => n ≠ []
  | .cmd _ (.cloudRename n m _) => n ≠ [] ∧ m ≠ []
  | .part op => C38.Listing op
  | _ => True

/-- A new database. -/
def fresh : Db :=
  { storages := [{ uid := 0, name := Decode.cstr "main" }], next := 1
    vars := { storages := [(Decode.cstr "main", [])] } }

/-- Names are unique. -/
def Unique (db : Db) : Prop :=
  ((db.storages.map (·.name)).Pairwise (· ≠ ·)) ∧ ((db.clouds.map (·.name)).Pairwise (· ≠ ·))

/-- A storage holds partitions or is named by a tier. -/
def StorageUsed (db : Db) (name : Bytes) : Prop :=
  (∃ s ∈ db.storages, s.name = name ∧ s.parts ≠ []) ∨ ∃ t ∈ db.tiers, t.config.name = name

/-- A cloud is named by a storage. -/
def CloudUsed (db : Db) (name : Bytes) : Prop := ∃ s ∈ db.storages, s.cloudName = name

/-- Dropping what is used is refused and changes nothing; so is giving another
cloud to a storage with files in its cloud. -/
def Protected (db : Db) : Prop :=
  (∀ name f i d, StorageUsed db name →
    ∃ m, execute f db (.storageDrop name i d) = (.err m, db)) ∧
  (∀ name f i, name ≠ [] → CloudUsed db name → ∃ m, execute f db (.cloudDrop name i) = (.err m, db)) ∧
  (∀ s ∈ db.storages, (∃ p ∈ s.parts, p.state.cloud = true) → ∀ f cloud e i mf df af,
    ∃ m, execute f db (.storageAlter s.name (some cloud) e i mf df af) = (.err m, db))

/-- A saved configuration can be loaded: the database opens with the same clouds,
storages and tiers (and the main storage), and every name finds its object. -/
def Loads (v : Vars) : Prop :=
  ∃ db, open_ v = .ok db ∧ db.clouds.map (·.name) = v.clouds ∧
    (∃ more, db.storages.map (fun s => (s.name, s.cloudName)) = v.storages ++ more ∧
      ∀ x ∈ more, x = (Decode.cstr "main", [])) ∧
    db.tiers.map (·.config) = v.tiers ∧
    (∀ t ∈ db.tiers, ∃ s ∈ db.storages, s.uid = t.storage ∧ s.name = t.config.name) ∧
    (∀ s ∈ db.storages, (s.cloudName = [] ∧ s.cloud = none) ∨ ∃ c ∈ db.clouds, s.cloud = some c.uid ∧ c.name = s.cloudName)

/-- What is to hold after any history. -/
def Holds (db : Db) : Prop := Unique db ∧ Protected db ∧ Loads db.file ∧ Loads db.vars

/-- C40 in full. -/
def Full : Prop := ∀ h, (∀ s ∈ h, Named s) → ∃ db, run fresh h = some db ∧ Holds db

/-- The steps that keep references: an ALTER STORAGE that sets a cloud succeeds
(the cloud exists and can be attached), and a pipeline does not name a storage
twice. -/
def Careful (db : Db) : Step → Prop
  | .cmd _ (.storageAlter _ (some c) _ _ _ _ attachFails) =>
    c = [] ∨ ((∃ x ∈ db.clouds, x.name = c) ∧ attachFails = false)
  | .cmd _ (.pipelineAlter cs) => (cs.map (·.name)).Pairwise (· ≠ ·)
  | _ => True

/-- All steps of a history are of that kind. -/
def CarefulAll (db : Db) : List Step → Prop
  | [] => True
  | s :: l => Careful db s ∧ ∀ db', step db s = some db' → CarefulAll db' l

/-- A name with every `n` replaced by `m`. -/
def renamed (n m x : Bytes) : Bytes := if x = n then m else x

/-- A storage renamed, and every tier that named it. -/
def StorageRenamed (n m : Bytes) (db db' : Db) : Prop :=
  db'.storages = db.storages.map (fun s => { s with name := renamed n m s.name }) ∧
  db'.tiers = db.tiers.map (fun t => { t with config := { t.config with name := renamed n m t.config.name } }) ∧
  db'.clouds = db.clouds

/-- A cloud renamed, and every storage that named it. -/
def CloudRenamed (n m : Bytes) (db db' : Db) : Prop :=
  db'.storages = db.storages.map (fun s => { s with cloudName := renamed n m s.cloudName }) ∧
  db'.clouds = db.clouds.map (fun c => { c with name := renamed n m c.name }) ∧ db'.tiers = db.tiers

end Verif.C40
