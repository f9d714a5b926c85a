import Verif.Model.Whole
import Verif.Spec.C07
import Verif.Spec.C15
import Verif.Spec.C22

/-! C84: the database as a whole, from its bytes: after any history the cursor
returns the last version of every key. -/
namespace Verif.C84
open Spec Io Whole

/-- The events of all batches of a history. -/
def accepted : List Op → List Event
  | [] => []
  | .log es :: ops => es.map (·.event) ++ accepted ops
  | _ :: ops => accepted ops

/-- The events of all batches of a history, also of those that failed. -/
def tried : List Op → List Event
  | [] => []
  | .log es :: ops => es.map (·.event) ++ tried ops
  | .reject es :: ops => es ++ tried ops
  | .fault es _ :: ops => es.map (·.event) ++ tried ops
  | _ :: ops => tried ops

/-- The last event with the id and the key of `e`. -/
def lastOf (es : List Event) (e : Event) : Option Event :=
  (es.filter fun x => decide (x.id = e.id ∧ x.key = e.key)).getLast?

/-- A reader of everything gets the events of `es` that are the last with their
id and key and are not deletes, in order. -/
def Shows (env : Env) (w : Db) (es : List Event) : Prop :=
  ∃ M, Ascending M ∧ (∀ e, e ∈ M ↔ lastOf es e = some e ∧ e.isDelete = false) ∧
    ∃ n, ∀ fuel ≥ n, scan env w fuel = .ok (some M)

/-- Files of events of one partition stay within the limits of the format (C15). -/
def FilesFit (env : Env) (E : List Event) : Prop :=
  ∀ (q : Nat) (ms : List EventMem), Ascending (ms.map (·.event)) →
    (∀ m ∈ ms, m.event ∈ E ∧ m.event.id / env.iv = q ∧ m.event.key.length ≤ m.slack.length) →
    C15.total ms ≤ 536870912 ∧ 52 * ms.length ≤ 536870912 ∧
    ∀ a f, writeFile env.cs env.src a ms = .ok f →
      f.file.length < 4294967296 ∧ C15.NoGrowth env.cs env.src ms f.index_writer.data

/-- The settings, and the events of a history: partitions end below 2^31 (C03),
tables of one page or that grow at the end (C07), files within the limits of the
format. -/
structure Limits (env : Env) (E : List Event) : Prop where
  interval : 0 < env.iv ∧ env.iv < 2147483648
  codes : env.src.compression < 256 ∧ env.src.encryption < 256
  encryption : C15.EncryptionWorks env.cs env.src
  ids : ∀ e ∈ E, e.id / env.iv * env.iv + env.iv ≤ 2147483648
  tame : ∀ q, C07.Tame 512 508 (E.filter fun e => e.id / env.iv == q)
  files : FilesFit env E

/-- How the code is called: batches make a record, and wait for each other;
partitions are named by ids below 2^31; the memory behind the events can be read;
the log files stay at most 3 GiB long. -/
def Called (env : Env) (w : Db) : Op → Prop
  | .log es => w.pending = none ∧ Wal.Calm env.crcOn es ∧ Wal.Fits es
  | .begin_ id => id < 2147483648
  | .merge id pad tc tr => id < 2147483648 ∧ (∀ e, e.key.length ≤ (pad e).length) ∧
      tc < 18446744073709551616 ∧ tr < 18446744073709551616
  | .apply_ id => id < 2147483648
  | .complete id => id < 2147483648
  | .delete id => id < 2147483648
  | .finish id => id < 2147483648
  | .crash => ∀ f ∈ w.wal.dir.files, f.2.length ≤ 3221225472
  | .tear es n => w.pending = none ∧ Wal.Calm env.crcOn es ∧ Wal.Fits es ∧
      (∀ b, Wal.batch env.crcOn (w.wal.lsn + 1) es = .ok b → n < b.length) ∧
      ∀ f ∈ w.wal.dir.files, f.2.length + n ≤ 3221225472
  | .cut id _ => id < 2147483648 ∧ ∀ f ∈ w.wal.dir.files, f.2.length ≤ 3221225472
  | .reject es => w.pending = none ∧ ∀ e ∈ es, WF e
  | .fault es _ => w.pending = none ∧ Wal.Calm env.crcOn es ∧ Wal.Fits es
  | .fail id _ => id < 2147483648
  | _ => True

/-- The current log file consists of whole records. -/
def Clean (crcOn : Bool) (w : Db) : Prop :=
  ∃ c bs es, w.wal.current = some c ∧ (c.id, bs) ∈ w.wal.dir.files ∧
    (∀ e : C22.Entry, e ∈ es → e.Good crcOn) ∧ C22.content crcOn es = .ok bs

/-- The current log file begins with a whole record. -/
def Begun (crcOn : Bool) (w : Db) : Prop :=
  ∃ c e b bs, w.wal.current = some c ∧ (c.id, b ++ bs) ∈ w.wal.dir.files ∧
    C22.Entry.Good crcOn e ∧ e.bytes crcOn = .ok b

/-- The tables have one page, also with a batch. -/
def Room (w : Db) (es : List Event) : Prop :=
  es.length ≤ 512 ∧ ∀ e ∈ es, ∀ x, find w.map e.id = .ok (some x) → x.v.val.act.count + es.length ≤ 512

/-- Garbage collection of the log runs neither while a batch is between wal_write
and engine_commit, nor while a refresh is between refresh_apply and the deletion
of the old file.  After a crash in the middle of a record nothing is logged before
the log is rotated, and it can be rotated when there is a record in it.  A batch
that fails has an event, its tables have one page, and its record is not
complete.  A partition whose refresh failed is not refreshed before the next
start. -/
def Quiet (crcOn : Bool) (w : Db) : Op → Prop
  | .gc => w.pending = none ∧ ∀ p, w.phase p ≠ .applied ∧ w.phase p ≠ .completed
  | .log _ => Clean crcOn w
  | .tear _ _ => Clean crcOn w
  | .rotate _ => Clean crcOn w ∨ Begun crcOn w
  | .reject es => es ≠ [] ∧ Room w es
  | .fault es n => Clean crcOn w ∧ Room w (es.map (·.event)) ∧
      ∀ b, Wal.batch crcOn (w.wal.lsn + 1) es = .ok b → n < b.length
  | .begin_ id => ∀ x, find w.map id = .ok (some x) → w.phase x.v.min ≠ .failed
  | _ => True

/-- All steps of a history meet `P`. -/
def Along (env : Env) (P : Db → Op → Prop) : Db → List Op → Prop
  | _, [] => True
  | w, op :: ops => P w op ∧ ∀ w', step env w op = .ok w' → Along env P w' ops

/-- The full property: whatever happens, in whatever order, batches that were
logged are there and nothing else is; those that failed leave no trace. -/
def Full : Prop :=
  ∀ (env : Env) (ops : List Op) (w0 : Db), Limits env (tried ops) → ops.length < 4294967296 →
    create env = .ok w0 → Along env (Called env) w0 ops →
    ∃ w, run env w0 ops = .ok w ∧ Shows env w (accepted ops)

end Verif.C84
