import Verif.Spec.C40

/-! C73: a command on clouds, storages or the pipeline does what it says and is
saved, or is refused and changes nothing. -/
namespace Verif.C73
open Sto
open C40 (Step Named fresh run CarefulAll Careful)

/-- What a user knows of a database: the names of the clouds, the storages with
the names of their clouds, and the tiers. -/
structure Catalog where
  clouds : List Bytes
  storages : List (Bytes × Bytes)
  tiers : List Sto.TierConfig
deriving Repr, DecidableEq

/-- The catalog in memory. -/
def ofDb (db : Db) : Catalog :=
  { clouds := db.clouds.map (·.name), storages := db.storages.map (fun s => (s.name, s.cloudName)), tiers := db.tiers.map (·.config) }

/-- The catalog in the configuration file. -/
def ofFile (db : Db) : Catalog := { clouds := db.file.clouds, storages := db.file.storages, tiers := db.file.tiers }

/-- A new name for an old one. -/
def rename (old new x : Bytes) : Bytes := if x = old then new else x

/-- A tier that partitions leave. -/
def Limited (c : Sto.TierConfig) : Prop := c.partitions ≠ -1 ∨ c.size ≠ -1 ∨ c.events ≠ -1 ∨ c.duration ≠ -1

instance (c : Sto.TierConfig) : Decidable (Limited c) := inferInstanceAs (Decidable (_ ∨ _))

/-- A cloud that a storage may name: none, or one that there is. -/
def Known (k : Catalog) (cloud : Bytes) : Prop := cloud = [] ∨ cloud ∈ k.clouds

instance (k : Catalog) (c : Bytes) : Decidable (Known k c) := inferInstanceAs (Decidable (_ ∨ _))

/-- The catalog after a command, none if the command is to be refused. -/
def want (k : Catalog) : Cmd → Option Catalog
  | .cloudCreate n known ifNotExists =>
    if n ∈ k.clouds then (if ifNotExists then some k else none)
    else if known then some { k with clouds := k.clouds ++ [n] } else none
  | .cloudDrop n ifExists =>
    if n ∈ k.clouds then
      if ∃ s ∈ k.storages, s.2 = n then none else some { k with clouds := k.clouds.filter (· ≠ n) }
    else if ifExists then some k else none
  | .cloudRename n m ifExists =>
    if n ∈ k.clouds then
      if m ∈ k.clouds then none
      else some { k with clouds := k.clouds.map (rename n m), storages := k.storages.map fun s => (s.1, rename n m s.2) }
    else if ifExists then some k else none
  | .storageCreate n cloud ifNotExists _ _ =>
    if n ∈ k.storages.map (·.1) then (if ifNotExists then some k else none)
    else if Known k cloud then some { k with storages := k.storages ++ [(n, cloud)] } else none
  | .storageDrop n ifExists _ =>
    if n = Decode.cstr "main" then none
    else if n ∈ k.storages.map (·.1) then
      if n ∈ k.tiers.map (·.name) then none else some { k with storages := k.storages.filter fun s => s.1 ≠ n }
    else if ifExists then some k else none
  | .storageAlter n cloud _ ifExists _ _ _ =>
    if n ∈ k.storages.map (·.1) then
      match cloud with
      | none => some k
      | some c =>
        if Known k c then some { k with storages := k.storages.map fun s => if s.1 = n then (n, c) else s } else none
    else if ifExists then some k else none
  | .storageRename n m ifExists =>
    if n = Decode.cstr "main" then none
    else if n ∈ k.storages.map (·.1) then
      if m ∈ k.storages.map (·.1) then none
      else some
        { k with
          storages := k.storages.map fun s => (rename n m s.1, s.2)
          tiers := k.tiers.map fun t => { t with name := rename n m t.name } }
    else if ifExists then some k else none
  | .pipelineAlter cs =>
    if (∀ c ∈ cs, c.name ∈ k.storages.map (·.1)) ∧
      ∀ x ∈ cs.zip cs.tail, x.1.name ≠ x.2.name ∧ Limited x.1 then some { k with tiers := cs }
    else none

/-- The storage of a name has partitions. -/
def HasParts (db : Db) (n : Bytes) : Prop := ∃ s ∈ db.storages, s.name = n ∧ s.parts ≠ []

/-- The storage of a name has partitions in its cloud. -/
def HasCloudParts (db : Db) (n : Bytes) : Prop := ∃ s ∈ db.storages, s.name = n ∧ ∃ p ∈ s.parts, p.state.cloud = true

/-- What the catalog does not tell and a command may be refused for: directories
and clouds that fail, and partitions in the way. -/
def Outside (db : Db) : Cmd → Prop
  | .storageCreate _ _ _ mkdirFails attachFails => mkdirFails = true ∨ attachFails = true
  | .storageDrop n _ detachFails => detachFails = true ∨ HasParts db n
  | .storageAlter n cloud needsEmpty _ mkdirFails detachFails _ =>
    mkdirFails = true ∨ detachFails = true ∨ (needsEmpty = true ∧ HasParts db n) ∨ (cloud.isSome = true ∧ HasCloudParts db n)
  | _ => False

/-- The partitions stay where they are. -/
def Kept (db db' : Db) : Prop :=
  (∀ s ∈ db.storages, s.parts ≠ [] → ∃ s' ∈ db'.storages, s'.uid = s.uid ∧ s'.parts = s.parts) ∧
  (∀ s' ∈ db'.storages, s'.parts ≠ [] → ∃ s ∈ db.storages, s.uid = s'.uid ∧ s.parts = s'.parts)

/-- A command is refused and changes nothing, or does what it says and is saved. -/
def Atomic (saveFails : Bool) (db : Db) (c : Cmd) : Prop :=
  (∃ m, execute saveFails db c = (.err m, db)) ∨
  (∃ db', execute saveFails db c = (.ok (), db') ∧ want (ofDb db) c = some (ofDb db') ∧ ofFile db' = ofDb db' ∧ Kept db db')

/-- It is refused for a reason only. -/
def Justified (db : Db) (c : Cmd) : Prop :=
  want (ofDb db) c ≠ none → ¬ Outside db c → ∃ db', execute false db c = (.ok (), db')

/-- C73 in full: after any history, whatever fails. -/
def Full : Prop :=
  ∀ h, (∀ s ∈ h, Named s) → ∀ db, run fresh h = some db → ∀ f c, Named (.cmd f c) → Atomic f db c ∧ Justified db c

end Verif.C73
