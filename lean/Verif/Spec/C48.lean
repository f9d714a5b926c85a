import Verif.Model.Decode
import Verif.Spec.C34
import Verif.Spec.C45

/-! C48: decoding a stored object checks every field. -/
namespace Verif.C48
open C34

/-- Types of fields. -/
inductive Ty where
  | uuid | string | int | bool
deriving Repr, DecidableEq

/-- Contents of a field. -/
inductive FV where
  | uuid (u : Uuid)
  | string (s : Bytes)
  | int (i : Int)
  | bool (b : Bool)
deriving Repr, DecidableEq

/-- A text whose first 36 characters are the uuid `u` (C45: longer texts are not
rejected). -/
def UuidText (s : Bytes) (u : Uuid) : Prop :=
  C45.Legal u ∧ 36 ≤ s.length ∧ ((s.map (·.toNat)).take 36).map C45.lower = Uuid.text u

/-- The stored value `v` stands for the field contents. -/
def FV.Stands : FV → Val → Prop
  | .uuid u, v => ∃ s, v = .str s ∧ UuidText s u
  | .string s, v => v = .str s
  | .int i, v => v = .int i
  | .bool b, v => v = .bool b

/-- The stored value has the type of the field. -/
def Ty.Accepts : Ty → Val → Prop
  | .uuid, v => ∃ s u, v = .str s ∧ UuidText s u
  | .string, v => ∃ s, v = .str s
  | .int, v => ∃ i, v = .int i
  | .bool, v => ∃ b, v = .bool b

/-- The last value stored under a key. -/
def last (name : Bytes) : Maps → Option Val
  | .nil => none
  | .cons k v l =>
    match last name l with
    | some w => some w
    | none => if k = name then some v else none

/-- Every value stored under the name of a field has its type. -/
def Typed (fields : List (Bytes × Ty)) : Maps → Prop
  | .nil => True
  | .cons k v l => (∀ ty, (k, ty) ∈ fields → ty.Accepts v) ∧ Typed fields l

/-- The keys that are no field names, in order. -/
def unknown (fields : List (Bytes × Ty)) : Maps → List Bytes
  | .nil => []
  | .cons k _ l => if k ∈ fields.map (·.1) then unknown fields l else k :: unknown fields l

/-- The map holds what is needed for an object. -/
def Good (fields : List (Bytes × Ty)) (l : Maps) : Prop :=
  Typed fields l ∧ ∀ name ty, (name, ty) ∈ fields → last name l ≠ none

/-- A kind of object: its fields, the contents of the fields of an object in
the same order, its C types' limits, and the model's reader and writer. -/
structure Kind (α : Type) where
  fields : List (Bytes × Ty)
  view : α → List FV
  fits : α → Prop
  read : Bytes → Res (α × List Bytes × Bytes)
  write : α → Bytes

/-- Reading any stored map: if every field is present and every value has the
right type the object holds the last value of each field, exactly the unknown
keys are reported in the log and nothing more is consumed; otherwise the read
fails with an error. -/
def Checks {α : Type} (K : Kind α) : Prop :=
  ∀ (l : Maps) (bs rest : Bytes), Fits (fun _ => True) (.map l) → Encodes (.map l) bs →
    (Good K.fields l →
      ∃ a, K.read (bs ++ rest) = .ok (a, unknown K.fields l, rest) ∧
        (K.view a).length = K.fields.length ∧
        ∀ (i : Nat) (name : Bytes) (ty : Ty), K.fields[i]? = some (name, ty) →
          ∃ fv v, (K.view a)[i]? = some fv ∧ last name l = some v ∧ fv.Stands v) ∧
    (¬ Good K.fields l → ∃ m, K.read (bs ++ rest) = .err m)

/-- What is written is read back, with nothing reported as unknown. -/
def WriteRead {α : Type} (K : Kind α) : Prop :=
  ∀ (a : α) (rest : Bytes), K.fits a → K.read (K.write a ++ rest) = .ok (a, [], rest)

/-- A string and an integer of the C types. -/
def S (s : Bytes) : Prop := s.length + 5 < 2147483648
def I (i : Int) : Prop := -9223372036854775808 ≤ i ∧ i < 9223372036854775808

def txt (s : String) : Bytes := s.toUTF8.data.toList

/-- Storages. -/
def source : Kind Source where
  fields := [(txt "uuid", .uuid), (txt "name", .string), (txt "path", .string), (txt "cloud", .string),
    (txt "cloud_drop_local", .bool), (txt "sync", .bool), (txt "crc", .bool), (txt "refresh_wm", .int),
    (txt "region_size", .int), (txt "compression", .string), (txt "compression_level", .int),
    (txt "encryption", .string), (txt "encryption_key", .string)]
  view s := [.uuid s.uuid, .string s.name, .string s.path, .string s.cloud, .bool s.cloud_drop_local,
    .bool s.sync, .bool s.crc, .int s.refresh_wm, .int s.region_size, .string s.compression,
    .int s.compression_level, .string s.encryption, .string s.encryption_key]
  fits s := C45.Legal s.uuid ∧ S s.name ∧ S s.path ∧ S s.cloud ∧ I s.refresh_wm ∧ I s.region_size ∧
    S s.compression ∧ I s.compression_level ∧ S s.encryption ∧ S s.encryption_key
  read := Source.read
  write := Source.write

/-- Clouds. -/
def cloud : Kind CloudConfig where
  fields := [(txt "name", .string), (txt "type", .string), (txt "login", .string),
    (txt "password", .string), (txt "url", .string), (txt "debug", .bool)]
  view s := [.string s.name, .string s.type, .string s.login, .string s.password, .string s.url,
    .bool s.debug]
  fits s := S s.name ∧ S s.type ∧ S s.login ∧ S s.password ∧ S s.url
  read := CloudConfig.read
  write := CloudConfig.write

/-- Tiers of the pipeline. -/
def tier : Kind TierConfig where
  fields := [(txt "name", .string), (txt "partitions", .int), (txt "size", .int), (txt "events", .int),
    (txt "duration", .int)]
  view s := [.string s.name, .int s.partitions, .int s.size, .int s.events, .int s.duration]
  fits s := S s.name ∧ I s.partitions ∧ I s.size ∧ I s.events ∧ I s.duration
  read := TierConfig.read
  write := TierConfig.write

/-- C48 in full. -/
def Full : Prop :=
  (Checks source ∧ WriteRead source) ∧ (Checks cloud ∧ WriteRead cloud) ∧ (Checks tier ∧ WriteRead tier)

end Verif.C48
