import Verif.Model.Commands
import Verif.Spec.C58

/-! C82: a command on partitions does what its text says: to the partitions it names,
to no others, and a command that is refused does nothing. -/
namespace Verif.C82
open Parse

/-- Partitions in order that have a storage; those on a cloud have a storage with a
cloud, those that are nowhere have no file. -/
structure Good (s : Store) : Prop where
  homes : s.homes.Pairwise fun h h' => h.name ≠ h'.name
  order : s.parts.Pairwise fun p q => p.max < q.min
  sound : ∀ p ∈ s.parts, p.min ≤ p.max ∧ p.max < 18446744073709551616
  home : ∀ p ∈ s.parts, ∃ h ∈ s.homes, h.name = p.home ∧ (p.onCloud = true → h.cloud = true)
  file : ∀ p ∈ s.parts, p.onDisk = false → p.onCloud = false → p.file = []

/-- PARTITIONS BETWEEN min AND max, not PARTITION id. -/
def Several (c : Partition) : Prop :=
  c.type = .dropRange ∨ c.type = .moveRange ∨ c.type = .refreshRange ∨ c.type = .downloadRange ∨ c.type = .uploadRange

def Drop (c : Partition) : Prop := c.type = .drop ∨ c.type = .dropRange
def Move (c : Partition) : Prop := c.type = .move ∨ c.type = .moveRange
def Refresh (c : Partition) : Prop := c.type = .refresh ∨ c.type = .refreshRange
def Download (c : Partition) : Prop := c.type = .download ∨ c.type = .downloadRange
def Upload (c : Partition) : Prop := c.type = .upload ∨ c.type = .uploadRange

/-- The partitions a command names: the one with the id, or those between the two. -/
def Named (c : Partition) (p : Piece) : Prop :=
  (Several c ∧ c.min ≤ p.min ∧ p.max ≤ c.max) ∨ (¬ Several c ∧ p.min ≤ c.min ∧ c.min ≤ p.max)

/-- The partition written anew into the storage: on its cloud if it has one, and on
disk unless the storage says that the local file goes then. -/
def Piece.into (p : Piece) (h : Home) : Piece :=
  { p with home := h.name, onCloud := h.cloud, onDisk := !(h.cloud && h.drop_local) }

/-- What a command does to a partition that it names; `none`: it is gone. -/
inductive Does (homes : List Home) (c : Partition) (p : Piece) : Option Piece → Prop
  /-- DROP: the partition goes. -/
  | drop : Drop c → c.mask = 9 → Does homes c p none
  /-- DROP ON CLOUD: its copy on the cloud goes, and if this was the only one, its file. -/
  | dropCloud : Drop c → c.mask = 8 →
      Does homes c p (some { p with onCloud := false, file := if p.onDisk then p.file else [] })
  /-- DROP ON STORAGE: its file on disk goes. -/
  | dropStorage : Drop c → c.mask = 1 →
      Does homes c p (some { p with onDisk := false, file := if p.onCloud then p.file else [] })
  /-- DOWNLOAD: what is on the cloud is on disk as well. -/
  | download {h} : Download c → h ∈ homes → h.name = p.home → (h.cloud = true ∨ c.ifCloud = true) →
      Does homes c p (some { p with onDisk := p.onDisk || p.onCloud })
  /-- UPLOAD: its file is on the cloud as well. -/
  | upload {h} : Upload c → h ∈ homes → h.name = p.home → h.cloud = true → (p.onDisk = true ∨ p.onCloud = true) →
      Does homes c p (some { p with onCloud := true })
  /-- UPLOAD IF CLOUD without a cloud. -/
  | uploadNot {h} : Upload c → h ∈ homes → h.name = p.home → h.cloud = false → c.ifCloud = true →
      Does homes c p (some p)
  /-- REFRESH: what is in memory goes to its file. -/
  | refresh {h} : Refresh c → h ∈ homes → h.name = p.home →
      Does homes c p (some (Piece.into { p with file := p.file ++ p.mem, mem := [] } h))
  /-- MOVE into another storage: and its file goes there. -/
  | move {h} : Move c → h ∈ homes → h.name = c.storage → h.name ≠ p.home →
      Does homes c p (some (Piece.into { p with file := p.file ++ p.mem, mem := [] } h))
  /-- MOVE into its own storage: nothing but that it goes to the cloud. -/
  | stay {h} : Move c → h ∈ homes → h.name = c.storage → h.name = p.home →
      Does homes c p (some (if h.cloud && (p.onDisk || p.onCloud) then Piece.into p h else p))

/-- The partitions that a command names are changed, the others are not. -/
inductive Changed (homes : List Home) (c : Partition) : List Piece → List Piece → Prop
  | nil : Changed homes c [] []
  | named {p r l l'} : Named c p → Does homes c p r → Changed homes c l l' → Changed homes c (p :: l) (r.toList ++ l')
  | other {p l l'} : ¬ Named c p → Changed homes c l l' → Changed homes c (p :: l) (p :: l')

/-- What a command asks for can be done. -/
def Possible (s : Store) (c : Partition) : Prop :=
  (Several c ∨ c.ifExists = true ∨ ∃ p ∈ s.parts, Named c p) ∧
  ∀ p ∈ s.parts, Named c p → ∃ r, Does s.homes c p r

/-- A command does what its text says, or is refused and does nothing.  CREATE
PARTITION is C04. -/
def Full : Prop :=
  ∀ (env : Env) (s : Store) (text : List Nat) (items : List C58.Item) (c : Partition),
    Good s → C58.Text items text → C58.Says C58.documented env (.partition c) items → c.type ≠ .create →
    (Possible s c → ∃ parts b, Execute.main_execute env s text = .ok { s with parts := parts } b ∧
      Changed s.homes c s.parts parts) ∧
    (¬ Possible s c → ∃ m, Execute.main_execute env s text = .error s m)

/-- No partition ends at the last id, and none has the start of the range inside. -/
def Clear (s : Store) (c : Partition) : Prop :=
  Several c → ∀ p ∈ s.parts, p.max < 18446744073709551615 ∧ (c.min ≤ p.min ∨ p.max < c.min)

/-- No partition without a file is moved into its own storage with a cloud. -/
def Elsewhere (s : Store) (c : Partition) : Prop :=
  Move c → ∀ p ∈ s.parts, ∀ h ∈ s.homes, Named c p → h.name = c.storage → h.name = p.home → h.cloud = true →
    p.onDisk = true ∨ p.onCloud = true

/-- The events of a partition, and which ids it is for. -/
def holds (p : Piece) : Nat × Nat × List Nat := (p.min, p.max, p.file ++ p.mem)

end Verif.C82
