import Verif.Spec.C73
import Verif.Proofs.C73
import Verif.Props.C40

namespace Verif.C73
open Sto
open C40 (Step Named fresh run CarefulAll Careful)

/-- C73, all but the failures below: after a history as in C40 - saves may fail,
restarts, operations on partitions - a command that can be saved is refused and
changes nothing, or does what it says; then memory and configuration file agree
and all partitions are where they were.  It is refused only if the catalog asks
for it or something outside fails.  Missing: saving the configuration fails
(`C73_unsaved`, `C73_false_save`), and an ALTER STORAGE whose new cloud cannot be
used (`C73_false_alter`). -/
theorem C73_partial (h : List Step) (hn : ∀ s ∈ h, Named s) (hc : CarefulAll fresh h) (db : Db) (e : run fresh h = some db)
    (c : Cmd) (hn1 : Named (.cmd false c)) (hc1 : Careful db (.cmd false c)) : Atomic false db c ∧ Justified db c := by
  obtain ⟨db', e', k⟩ := C40.inv_run h C40.inv_fresh hn hc
  rw [e] at e'
  cases e'
  rcases whole k c hn1 hc1 with ⟨m, hw, he⟩ | ⟨db', h1, h2, h3, h4, _⟩
  · refine ⟨.inl ⟨m, he false⟩, fun a b => ?_⟩
    rcases hw with hw | hw
    · exact absurd hw a
    · exact absurd hw b
  · exact ⟨.inr ⟨db', h4, h1, h3, h2⟩, fun _ _ => ⟨db', h4⟩⟩

/-- When the configuration cannot be saved a command reports an error: it has
been refused and has changed nothing, or it has been done in memory, as if it had
succeeded, and only the file is the old one. -/
theorem C73_unsaved (h : List Step) (hn : ∀ s ∈ h, Named s) (hc : CarefulAll fresh h) (db : Db) (e : run fresh h = some db)
    (c : Cmd) (hn1 : Named (.cmd false c)) (hc1 : Careful db (.cmd false c)) :
    ∃ m, execute true db c = (.err m, db) ∨
      (execute true db c = (.err m, { (execute false db c).2 with file := db.file }) ∧ (execute false db c).1 = .ok ()) := by
  obtain ⟨db', e', k⟩ := C40.inv_run h C40.inv_fresh hn hc
  rw [e] at e'
  cases e'
  rcases whole k c hn1 hc1 with ⟨m, hw, he⟩ | ⟨db', h1, h2, h3, h4, m, h5⟩
  · exact ⟨m, .inl (he true)⟩
  · exact ⟨m, .inr ⟨by rw [h5, h4], by rw [h4]⟩⟩

/-- In any state, whatever fails: a command that reports an error leaves the
configuration file as it was, and so what a restart finds. -/
theorem C73_file (db : Db) (f : Bool) (c : Cmd) (m : String) (e : (execute f db c).1 = .err m) :
    (execute f db c).2.file = db.file := file_err db f c m e

/-! What is false. -/

/-- CREATE CLOUD when the configuration cannot be written: an error, and the cloud
is there; the next command saves it, and a restart finds it. -/
theorem C73_false_save : ∃ m db, execute true fresh (.cloudCreate (Decode.cstr "c") true false) = (.err m, db) ∧
    (ofDb db).clouds = [Decode.cstr "c"] ∧
    (run fresh [.cmd true (.cloudCreate (Decode.cstr "c") true false), .cmd false (.cloudCreate (Decode.cstr "d") true false), .reopen]).map
      (fun db => (ofDb db).clouds) = some [Decode.cstr "c", Decode.cstr "d"] := by
  refine ⟨"config_save", _, rfl, ?_, ?_⟩ <;> decide +kernel

/-- A cloud and a storage on it. -/
def cloudHistory : List Step :=
  [.cmd false (.cloudCreate (Decode.cstr "c") true false),
   .cmd false (.storageCreate (Decode.cstr "a") (Decode.cstr "c") false false false)]

/-- ALTER STORAGE to a cloud that is missing: refused, but the storage has lost its
cloud and has the name of the missing one. -/
theorem C73_false_alter : ∃ db, run fresh cloudHistory = some db ∧
    ∃ m db', execute false db (.storageAlter (Decode.cstr "a") (some (Decode.cstr "x")) false false false false false) = (.err m, db') ∧
      db.storages.map (fun s => (s.cloudName, s.cloud.isSome)) = [([], false), (Decode.cstr "c", true)] ∧
      db'.storages.map (fun s => (s.cloudName, s.cloud.isSome)) = [([], false), (Decode.cstr "x", false)] := by
  refine ⟨_, rfl, "storage: cloud not exists", _, rfl, ?_, ?_⟩ <;> decide +kernel

theorem C73_false : ¬ Full := by
  intro h
  rcases (h [] (by simp) fresh rfl true (.cloudCreate (Decode.cstr "c") true false) (by
    show Decode.cstr "c" ≠ []; decide)).1 with ⟨m, e⟩ | ⟨db', e, _⟩
  · have : (execute true fresh (.cloudCreate (Decode.cstr "c") true false)).2.clouds.length = fresh.clouds.length :=
      congrArg (fun r => r.2.clouds.length) e
    revert this
    decide +kernel
  · have : (execute true fresh (.cloudCreate (Decode.cstr "c") true false)).1 = .err "config_save" := rfl
    rw [e] at this
    cases this

/-! Non-vacuity: after the history of C40 (clouds, storages, a pipeline with
partitions, renames, a failed save, a restart) a storage is created; one that is
in the pipeline is not dropped. -/

/-- A new storage on a cloud. -/
def good : Cmd := .storageCreate (Decode.cstr "n") (Decode.cstr "d") false false false

/-- A storage that is used. -/
def bad : Cmd := .storageDrop (Decode.cstr "z") false false

/-- What the two commands do in a database. -/
def tells (db : Db) : Bool :=
  (match execute false db good with
    | (.ok _, db') => decide ((ofFile db').storages.length = 4) && decide (want (ofDb db) good = some (ofFile db'))
    | _ => false) &&
  (match execute false db bad with
    | (.err _, db') => decide (db' = db)
    | _ => false)

example : (run fresh C40.goodHistory).map tells = some true := by decide +kernel

example (db : Db) (e : run fresh C40.goodHistory = some db) : Atomic false db good ∧ Atomic false db bad :=
  ⟨(C73_partial _ C40.goodNamed C40.goodCareful db e good trivial trivial).1,
   (C73_partial _ C40.goodNamed C40.goodCareful db e bad trivial trivial).1⟩

end Verif.C73
