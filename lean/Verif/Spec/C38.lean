import Verif.Model.Storage

/-! C38: the statistics of a storage equal the stored data. -/
namespace Verif.C38
open Sto

/-- What happens to partitions.  In `restart` the function `dirs` gives the file
groups in the directory of every storage, `keep` those that recovery keeps and
`valid` the state it gives them. -/
inductive Op where
  | create (min now : Nat)
  | refresh (min : Nat) (target : Option Bytes) (size events : Nat) (fails : Bool)
  | dropFile (min : Nat) (auto cloud local_ failCloud failLocal : Bool)
  | dropRef (min : Nat)
  | download (min : Nat) (fails : Bool)
  | upload (min : Nat) (fails : Bool)
  | restart (dirs : Nat → List Found) (keep : Nat → Found → Bool) (valid : Nat → Found → State)

/-- The state after a command that may fail. -/
def after (db : Db) : Res Db → Db
  | .ok db => db
  | _ => db

/-- Partitions are only created where there is none (engine_fill). -/
def step (db : Db) : Op → Db
  | .create min now => if (findPart db min).isSome then db else after db (Sto.create db min now)
  | .refresh min target size events fails => after db (Sto.refresh db min target size events fails)
  | .dropFile min auto cloud local_ fc fl => Sto.dropFile db min auto cloud local_ fc fl
  | .dropRef min => Sto.dropRef db min
  | .download min fails => Sto.download db min fails
  | .upload min fails => Sto.upload db min fails
  | .restart dirs keep valid =>
    { db with
      storages := db.storages.map fun s =>
        recoverStorage { s with parts := [], listCount := 0, size := 0, events := 0 } (dirs s.uid) (keep s.uid) (valid s.uid) }

def run (db : Db) : List Op → Db
  | [] => db
  | op :: l => run (step db op) l

/-- The listings a restart can meet: one group per partition and directory, a
partition kept on one storage only, and with a file. -/
def Listing : Op → Prop
  | .restart dirs keep valid =>
    (∀ u, (dirs u).Pairwise fun f g => f.min ≠ g.min) ∧
    (∀ u v, u ≠ v → ∀ f ∈ dirs u, keep u f = true → ∀ g ∈ dirs v, keep v g = true → f.min ≠ g.min) ∧
    (∀ u, ∀ f ∈ dirs u, keep u f = true → valid u f ≠ {})
  | _ => True

/-- A partition has a file. -/
def Stored (p : Part) : Prop := p.state ≠ {}

instance (p : Part) : Decidable (Stored p) := inferInstanceAs (Decidable (_ ≠ _))

/-- Sum of a number over the stored partitions of a storage. -/
def total (f : Part → Nat) (parts : List Part) : Nat := (parts.map fun p => if Stored p then f p else 0).sum

/-- The counters of a storage are the sums over its partitions (the C counters
have 64 bits). -/
def Accurate (s : Storage) : Prop :=
  s.listCount = s.parts.length ∧ s.size = wrapS64 (total (·.size) s.parts) ∧
    s.events = wrapS64 (total (·.events) s.parts)

/-- A partition is on one storage, once; storages are distinct objects. -/
def Placed (db : Db) : Prop :=
  (db.storages.Pairwise fun s t => s.uid ≠ t.uid ∧ ∀ p ∈ s.parts, ∀ q ∈ t.parts, p.min ≠ q.min) ∧
  ∀ s ∈ db.storages, s.parts.Pairwise fun p q => p.min ≠ q.min

/-- What SHOW reports of a storage is what its partitions are (heap numbers are
not in the model). -/
def Reported (s : Storage) : Prop :=
  storage_show s =
    { partitions := s.parts.length
      local_ := (s.parts.filter (·.state.id)).length
      cloud := (s.parts.filter (·.state.cloud)).length
      events := wrapU64 (total (·.events) s.parts) }

/-- C38 in full: the counters that rebalance uses and what SHOW reports. -/
def Full : Prop :=
  ∀ db ops, Placed db → (∀ s ∈ db.storages, Accurate s) → (∀ op ∈ ops, Listing op) →
    ∀ s ∈ (run db ops).storages, Accurate s ∧ Reported s

/-- A step that removes the last file of a stored partition and leaves the
partition: storage, size and events of the lost file. -/
def loss (db : Db) : Op → Option (Nat × Nat × Nat)
  | .dropFile min auto cloud local_ fc fl =>
    match findPart db min, findPart (step db (.dropFile min auto cloud local_ fc fl)) min with
    | some (s, p), some (_, q) => if Stored p ∧ ¬ Stored q then some (s.uid, p.size, p.events) else none
    | _, _ => none
  | _ => none

/-- Sizes and events of the files lost that way since the last restart, for a
storage. -/
def lost (db : Db) (u : Nat) (d : Int × Int) : List Op → Int × Int
  | [] => d
  | op :: l =>
    lost (step db op) u
      (match op with
      | .restart .. => (0, 0)
      | op =>
        match loss db op with
        | some (v, size, events) => if v = u then (d.1 + size, d.2 + events) else d
        | none => d) l

/-- No partition loses its last file and stays. -/
def NoLoss (db : Db) : List Op → Prop
  | [] => True
  | op :: l => loss db op = none ∧ NoLoss (step db op) l

/-- The counters are right up to the lost files. -/
def AccurateUpTo (d : Int × Int) (s : Storage) : Prop :=
  s.listCount = s.parts.length ∧ s.size = wrapS64 (total (·.size) s.parts + d.1) ∧
    s.events = wrapS64 (total (·.events) s.parts + d.2)

end Verif.C38
