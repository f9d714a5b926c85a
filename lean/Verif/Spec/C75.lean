import Verif.Model.Cold
import Verif.Spec.C15

/-! C75: a partition reads the same wherever its copies are. -/
namespace Verif.C75
open Io Cold

/-- A reader of the partition gets exactly the events `l`. -/
def Readable (cs : Codecs) (mc : MemCmp) (s : State) (l : List Event) : Prop :=
  ∃ p it, reading s = .ok p ∧ PartIterator.open_ cs mc p none = .ok (it, false) ∧
    Yields PartIterator.at_ (PartIterator.next cs mc) it l

/-- Nobody drops the only copy, going by the state of the partition. -/
def Allowed (s : State) : Op → Prop
  | .dropLocal _ => s.cloud = true
  | .dropCloud _ => s.id = true
  | _ => True

/-- Every operation of a history is as wanted when it comes. -/
def All (cs : Codecs) (P : State → Op → Prop) : State → List Op → Prop
  | _, [] => True
  | s, o :: l => P s o ∧ ∀ s' e, step cs s o = .ok (s', e) → All cs P s' l

/-- What is needed to write a file that can be read, see C15. -/
structure Written (cs : Codecs) (s : WriterSource) (a : IndexWriter.StopArg) (ms : List EventMem) (w : Writer) : Prop where
  events : ∀ m ∈ ms, WF m.event
  arg : ArgWF s a
  done : writeFile cs s a ms = .ok w
  small : w.file.length < 4294967296
  room : C15.NoGrowth cs s ms w.index_writer.data

/-- After any history of uploads, downloads, drops of one of two copies, and
restarts, each of which may fail anywhere, and whatever bytes a download delivers,
the partition has the events that were written. -/
def Full : Prop :=
  ∀ (cs : Codecs) (mc : MemCmp) (src : WriterSource) (a : IndexWriter.StopArg) (ms : List EventMem) (w : Writer),
    Written cs src a ms w → ∀ l, All cs Allowed (fresh w) l →
    ∃ s, run cs (fresh w) l = .ok s ∧ Readable cs mc s (ms.map (·.event))

/-- What is needed of an operation: a download delivers the bytes of the object; the
local copy is dropped only if the cloud has its object and there is a cloud file,
and the drop does not fail; the copy in the cloud is dropped only if there is a
local one; no restart with a complete and an incomplete local file and a cloud
file. -/
def Fair (s : State) : Op → Prop
  | .upload _ => True
  | .download got _ => ∀ b, s.object = some b → got = b
  | .dropLocal fail => fail = false ∧ s.cloud = true ∧ s.cloudFile.isSome = true ∧ s.object.isSome = true
  | .dropCloud _ => s.id = true
  | .restart => ¬ (s.file.isSome = true ∧ s.incomplete.isSome = true ∧ s.cloudFile.isSome = true)

/-- A download that does not fail after its rename. -/
def Early : Op → Prop
  | .download _ (some (.open _)) => False
  | _ => True

end Verif.C75
