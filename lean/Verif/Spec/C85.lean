import Verif.Spec.C12
import Verif.Spec.C84

/-! C85: the database as a whole, from its bytes: a cursor opened at a key returns
the last versions from the key on. -/
namespace Verif.C85
open Spec Io Whole C84

/-- A reader from `k` on gets the events of `es` at or after `k` that are the last
with their id and key and are not deletes, in order. -/
def ShowsFrom (env : Env) (w : Db) (es : List Event) (k : Event) : Prop :=
  ∃ M, Ascending M ∧ (∀ e, e ∈ M ↔ (lastOf es e = some e ∧ e.isDelete = false) ∧ evCmp k e ≤ 0) ∧
    ∃ n, ∀ fuel ≥ n, scanFrom env w fuel k = .ok (some M)

/-- The key: below 2^31 (C03); the seeks in tables stay within the limits of C08;
all events of its id are at or after it, or its id is the last of its partition
(C12). -/
structure KeyOk (env : Env) (E : List Event) (k : Event) : Prop where
  id_ : k.id < 2147483648
  key : k.key.length ≤ 255
  tables : ∀ q, k.id / env.iv ≤ q → C12.TameSeek 512 508 (E.filter fun e => e.id / env.iv == q) k
  tail : (∀ e ∈ E, e.id = k.id → evCmp k e ≤ 0) ∨ ∀ e ∈ E, e.id / env.iv = k.id / env.iv → e.id ≤ k.id

/-- The full property: whatever happened before, and whatever the key. -/
def Full : Prop :=
  ∀ (env : Env) (ops : List Op) (w0 : Db) (k : Event), Limits env (tried ops) → ops.length < 4294967296 →
    create env = .ok w0 → Along env (Called env) w0 ops → WF k →
    ∃ w, run env w0 ops = .ok w ∧ ShowsFrom env w (accepted ops) k

end Verif.C85
