import Verif.Spec.Wal

/-! C22 and C23: reading the log. -/
namespace Verif.C22
open Io Wal

/-- What was logged: a batch (its events in memory) or a dropped partition,
with its number. -/
inductive Entry where
  | write (lsn : Nat) (es : List LogEvent)
  | drop (lsn : Nat) (id : Nat)
deriving Repr, DecidableEq

namespace Entry

def lsn : Entry → Nat
  | write l _ => l
  | drop l _ => l

/-- The record as it should be read. -/
def record : Entry → Rec
  | write l es => .write l es.length (es.map (·.event))
  | drop l id => .drop l id

/-- The bytes written for it. -/
def bytes (crcOn : Bool) : Entry → Res Bytes
  | write l es => batch crcOn l es
  | drop l id => .ok (dropRecord crcOn l id)

/-- It can be written and read back (C20). -/
def Good (crcOn : Bool) : Entry → Prop
  | write l es => l < 18446744073709551616 ∧ Calm crcOn es ∧ Fits es
  | drop l id => l < 18446744073709551616 ∧ id < 18446744073709551616

end Entry

/-- A log file: what was logged in it, and bytes of a record that was not
written completely after that. -/
structure LogFile where
  id : Nat
  entries : List Entry
  torn : Bytes
deriving Repr, DecidableEq

/-- The bytes written for a list of entries. -/
def content (crcOn : Bool) : List Entry → Res Bytes
  | [] => .ok []
  | e :: es => (e.bytes crcOn).bind fun b => (content crcOn es).bind fun bs => .ok (b ++ bs)

/-- The directory of these files. -/
def Holds (crcOn : Bool) : List LogFile → Dir → Prop
  | [], d => d.list = [] ∧ d.files = []
  | f :: fs, d => ∃ d' bs, Holds crcOn fs d' ∧ content crcOn f.entries = .ok bs ∧
      d.list = f.id :: d'.list ∧ d.files = (f.id, bs ++ f.torn) :: d'.files

/-- The torn bytes are the beginning of a record. -/
def TornWF (crcOn : Bool) (t : Bytes) : Prop :=
  t = [] ∨ ∃ (e : Entry) (b : Bytes) (n : Nat), e.Good crcOn ∧ e.bytes crcOn = .ok b ∧ n < b.length ∧ t = b.take n

/-- The files are in order: ids ascend, numbers ascend, and the numbers of a
file start at its id and stay below the id of the next file. -/
def Ordered (fs : List LogFile) : Prop :=
  fs.Pairwise (fun f g => f.id < g.id ∧ ∀ e ∈ f.entries, e.lsn < g.id) ∧
  ∀ f ∈ fs, f.id < 18446744073709551615 ∧ f.entries.Pairwise (fun a b => a.lsn < b.lsn) ∧
    ∀ e ∈ f.entries, f.id ≤ e.lsn

/-- A log as wal_write and wal_rotate leave it. -/
def LogWF (crcOn : Bool) (fs : List LogFile) : Prop :=
  Ordered fs ∧ ∀ f ∈ fs, (∀ e ∈ f.entries, e.Good crcOn) ∧ TornWF crcOn f.torn

/-- Everything logged, in order. -/
def entriesOf (fs : List LogFile) : List Entry := fs.flatMap (·.entries)

/-- Reading from `lsn` on returns exactly the records from there on. -/
def ReadsFrom (crcOn : Bool) (fs : List LogFile) (d : Dir) (lsn : Nat) : Prop :=
  ∀ fuel, (entriesOf fs).length < fuel →
    readLog crcOn d lsn fuel = .ok (((entriesOf fs).filter fun e => lsn ≤ e.lsn).map (·.record))

/-- The full property. -/
def Full : Prop :=
  ∀ (crcOn : Bool) (fs : List LogFile) (d : Dir) (lsn : Nat), LogWF crcOn fs → Holds crcOn fs d →
    lsn < 18446744073709551615 → ReadsFrom crcOn fs d lsn

/-- Every file is at most 3 GiB (rotation is at 100 MiB by default). -/
def Small (d : Dir) : Prop := ∀ f ∈ d.files, f.2.length ≤ 3221225472

end Verif.C22
