import Verif.Model.Cursor
import Verif.Spec.C03
import Verif.Spec.C07
import Verif.Spec.C15

/-! What a cursor has to return, for C11 and C12. -/
namespace Verif.Cursor
open Spec Io

/-- Where the versions of a partition come from: the writes to the table that
takes writes, in order; the writes to the other table, before a refresh rotated
them; the events given to the writer of its file. -/
structure Content where
  act : List Event
  prev : List Event
  file : Option (List EventMem)

/-- The events of the file. -/
def Content.stored (c : Content) : List Event :=
  match c.file with
  | some ms => ms.map (·.event)
  | none => []

/-- All events of the partition. -/
def Content.all (c : Content) : List Event := c.act ++ c.prev ++ c.stored

/-- The current version of a key: the last write, or what the file holds. -/
def Content.current (c : Content) (k : Event) : Option Event :=
  ((C07.lastOf k c.act).or (C07.lastOf k c.prev)).or (c.stored.find? fun a => a.pair == k.pair)

/-- `f` is the open file that was written for the events `ms`, with any settings,
within the limits of C15. -/
def FileOf (cs : Codecs) (ms : List EventMem) (f : PartFile) : Prop :=
  ∃ s a w, writeFile cs s a ms = .ok w ∧ part_open cs w.file = .ok f ∧ ArgWF s a ∧
    w.file.length < 4294967296 ∧ C15.NoGrowth cs s ms w.index_writer.data

/-- `p` is what the code builds for the content: tables of pages of `sp` events
that split at `ss` (512 and 508 in the code), and the file. -/
structure Built (cs : Codecs) (mc : MemCmp) (sp ss : Nat) (c : Content) (p : CPart) : Prop where
  act : ∃ ps, C07.run mc (Memtable.init sp ss) c.act = .ok (p.act, ps)
  prev : ∃ ps, C07.run mc (Memtable.init sp ss) c.prev = .ok (p.prev, ps)
  file : match c.file, p.file with
    | none, none => True
    | some ms, some f => FileOf cs ms f
    | _, _ => False

/-- Events with the field widths of the code, in the range of their partition;
the file was written in order. -/
structure Sound (s : Slice CPart) (c : Content) : Prop where
  wf : ∀ e ∈ c.all, WF e
  covered : ∀ e ∈ c.all, Covers s e.id
  sorted : Ascending c.stored

/-- The partitions `S` and their contents. -/
def Holds (cs : Codecs) (mc : MemCmp) (sp ss : Nat) (S : List (Slice CPart)) (ct : Slice CPart → Content) : Prop :=
  ∀ s ∈ S, Built cs mc sp ss (ct s) s.val ∧ Sound s (ct s)

/-- An event that is the current version of its key in the partition that covers
it, and not a delete. -/
def Live (S : List (Slice CPart)) (ct : Slice CPart → Content) (x : Event) : Prop :=
  x.isDelete = false ∧ ∃ s ∈ S, (ct s).current x = some x

/-- Reading with a cursor ends and returns exactly the live events that meet `P`,
in strictly ascending order. -/
def Returns (cs : Codecs) (mc : MemCmp) (db : Mapping CPart) (key : Option Event) (S : List (Slice CPart))
    (ct : Slice CPart → Content) (P : Event → Prop) : Prop :=
  ∃ M, Ascending M ∧ (∀ x, x ∈ M ↔ Live S ct x ∧ P x) ∧
    ∃ n, ∀ fuel ≥ n, scan cs mc db fuel key = .ok (some M)

end Verif.Cursor
