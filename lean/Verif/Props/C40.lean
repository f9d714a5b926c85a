import Verif.Spec.C40
import Verif.Proofs.C40c

namespace Verif.C40
open Sto

/-- C40, all but two commands: starting from a new database, after any history of
commands, partition operations and restarts - the saving of the configuration may
fail at any command - the database could always be opened again, names are unique,
dropping a storage with partitions or in the pipeline or a cloud used by a storage
is refused, and the saved configuration (as well as the one that would be saved)
loads with all its references.  Missing: histories with an ALTER STORAGE that sets
a cloud and fails (`C40_false_alter`), and pipelines that name a storage twice
(`C40_false_rename`). -/
theorem C40_partial (h : List Step) (hn : ∀ s ∈ h, Named s) (hc : CarefulAll fresh h) : ∃ db, run fresh h = some db ∧ Holds db := by
  obtain ⟨db, e, k⟩ := inv_run h inv_fresh hn hc
  exact ⟨db, e, k.holds⟩

/-- After such a history a rename of a storage is a rename everywhere: of the
storage and of every tier that names it, and of nothing else. -/
theorem C40_rename_storage_partial (h : List Step) (hn : ∀ s ∈ h, Named s) (hc : CarefulAll fresh h) (db : Db) (e : run fresh h = some db)
    (f i : Bool) (n m : Bytes) (h1 : ∃ s ∈ db.storages, s.name = n) (h2 : ∀ s ∈ db.storages, s.name ≠ m)
    (h3 : n ≠ Decode.cstr "main") : StorageRenamed n m db (execute f db (.storageRename n m i)).2 := by
  obtain ⟨db', e', k⟩ := inv_run h inv_fresh hn hc
  rw [e] at e'
  cases e'
  exact k.renameStorage f i n m h1 h2 h3

/-- The same for a cloud and the storages that name it. -/
theorem C40_rename_cloud_partial (h : List Step) (hn : ∀ s ∈ h, Named s) (hc : CarefulAll fresh h) (db : Db) (e : run fresh h = some db)
    (f i : Bool) (n m : Bytes) (h1 : ∃ s ∈ db.clouds, s.name = n) (h2 : ∀ s ∈ db.clouds, s.name ≠ m) :
    CloudRenamed n m db (execute f db (.cloudRename n m i)).2 := by
  obtain ⟨db', e', k⟩ := inv_run h inv_fresh hn hc
  rw [e] at e'
  cases e'
  exact k.renameCloud f i n m h1 h2

/-- A history with an ALTER STORAGE that names a cloud which does not exist: the
command is refused, but the name stays and the next command saves it. -/
def alterHistory : List Step :=
  [.cmd false (.storageAlter (Decode.cstr "main") (some (Decode.cstr "c")) false false false false false),
   .cmd false (.cloudCreate (Decode.cstr "d") true false), .reopen]

/-- C40 is false: after that history the database cannot be opened. -/
theorem C40_false_alter : (∀ s ∈ alterHistory, Named s) ∧ run fresh alterHistory = none := by
  refine ⟨?_, by decide +kernel⟩
  intro s hs
  simp only [alterHistory, List.mem_cons, List.not_mem_nil, or_false] at hs
  rcases hs with rfl | rfl | rfl
  · trivial
  · show Decode.cstr "d" ≠ []
    decide
  · trivial

/-- A history with a storage twice in the pipeline, which is then renamed. -/
def renameHistory : List Step :=
  [.cmd false (.storageCreate (Decode.cstr "a") [] false false false),
   .cmd false (.storageCreate (Decode.cstr "b") [] false false false),
   .cmd false (.pipelineAlter
     [{ name := Decode.cstr "a", partitions := 1 }, { name := Decode.cstr "b", partitions := 1 }, { name := Decode.cstr "a" }]),
   .cmd false (.storageRename (Decode.cstr "a") (Decode.cstr "z") false), .reopen]

/-- C40 is false: the second tier keeps the old name, and after a restart the
database cannot be opened. -/
theorem C40_false_rename : (∀ s ∈ renameHistory, Named s) ∧ run fresh renameHistory = none := by
  refine ⟨?_, by decide +kernel⟩
  intro s hs
  simp only [renameHistory, List.mem_cons, List.not_mem_nil, or_false] at hs
  rcases hs with rfl | rfl | rfl | rfl | rfl <;> trivial

theorem C40_false : ¬ Full := by
  intro h
  obtain ⟨db, e, _⟩ := h alterHistory C40_false_alter.1
  rw [C40_false_alter.2] at e
  cases e

/-! The hypotheses are met by a history with a cloud, storages, a pipeline,
renames, a failing save and a restart. -/

/-- Such a history. -/
def goodHistory : List Step :=
  [.cmd false (.cloudCreate (Decode.cstr "c") true false),
   .cmd false (.storageCreate (Decode.cstr "a") (Decode.cstr "c") false false false),
   .cmd true (.storageCreate (Decode.cstr "b") [] false false false),
   .cmd false (.pipelineAlter [{ name := Decode.cstr "a", partitions := 1 }, { name := Decode.cstr "b" }]),
   .part (.create 0 5),
   .cmd false (.cloudRename (Decode.cstr "c") (Decode.cstr "d") false),
   .cmd false (.storageRename (Decode.cstr "a") (Decode.cstr "z") false),
   .cmd false (.storageAlter (Decode.cstr "b") (some (Decode.cstr "d")) false false false false false),
   .reopen]

/-- The names of the database after it. -/
example : (run fresh goodHistory).map (fun db =>
    (db.clouds.map (·.name), db.storages.map (fun s => (s.name, s.cloudName)), db.tiers.map (·.config.name))) =
  some ([Decode.cstr "d"],
    [(Decode.cstr "main", []), (Decode.cstr "z", Decode.cstr "d"), (Decode.cstr "b", Decode.cstr "d")],
    [Decode.cstr "z", Decode.cstr "b"]) := by decide +kernel

theorem goodNamed : ∀ s ∈ goodHistory, Named s := by
  intro s hs
  simp only [goodHistory, List.mem_cons, List.not_mem_nil, or_false] at hs
  rcases hs with rfl | rfl | rfl | rfl | rfl | rfl | rfl | rfl | rfl
  · show Decode.cstr "c" ≠ []; decide
  · trivial
  · trivial
  · trivial
  · trivial
  · show Decode.cstr "c" ≠ [] ∧ Decode.cstr "d" ≠ []; decide
  · trivial
  · trivial
  · trivial

/-- `CarefulAll` as a computation. -/
def carefulAll (db : Db) : List Step → Bool
  | [] => true
  | s :: l =>
    (match s with
      | .cmd _ (.storageAlter _ (some c) _ _ _ _ af) => c = [] || ((db.clouds.any fun x => x.name = c) && ! af)
      | .cmd _ (.pipelineAlter cs) => decide ((cs.map (·.name)).Pairwise (· ≠ ·))
      | _ => true) &&
    (match step db s with
      | some db => carefulAll db l
      | none => true)

theorem carefulAll_sound : ∀ (l : List Step) (db : Db), carefulAll db l = true → CarefulAll db l
  | [], _, _ => trivial
  | s :: l, db, h => by
    simp only [carefulAll, Bool.and_eq_true] at h
    refine ⟨?_, ?_⟩
    · have h1 := h.1
      unfold Careful
      split at h1
      · simpa using h1
      · simpa using h1
      · split
        · rename_i h3 _; exact (h3 _ _ _ _ _ _ _ _ rfl).elim
        · rename_i h3; exact (h3 _ _ rfl).elim
        · trivial
    · intro db' e
      have h2 := h.2
      rw [e] at h2
      exact carefulAll_sound l db' h2

theorem goodCareful : CarefulAll fresh goodHistory := carefulAll_sound _ _ (by decide +kernel)

example : ∃ db, run fresh goodHistory = some db ∧ Holds db := C40_partial _ goodNamed goodCareful

end Verif.C40
