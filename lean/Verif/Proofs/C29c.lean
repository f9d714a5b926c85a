import Verif.Proofs.C29b
import Verif.Proofs.DurCheck

/-! Helper lemmas for C29: deciding that concrete histories are tame or plain. -/
namespace Verif.C29
open Dur Serial
open Wal (Rec)

def roomB (s : State) (args : List Arg) : Bool := decide (s.ssn + args.length < 18446744073709551616)

def belowB (s : State) (args : List Arg) : Bool := args.all fun a => a.serial || decide (a.event.id < s.ssn)

def lastB (db : Db) : Bool :=
  match Serial.lastOf db db.known with
  | none => true
  | some (_, x) => !x.act.tbl.isEmpty || x.file.any fun f => !f.tbl.isEmpty

def tameB (iv : Nat) (s : State) : Serial.Op → Bool
  | .write args => roomB s args && belowB s args
  | .refused args => roomB s args && belowB s args
  | .other .crash => match restart iv s.db with
    | .ok db => lastB db
    | _ => true
  | .other (.log _) => false
  | .other _ => true

def plainB (s : State) : Serial.Op → Bool
  | .write args => roomB s args && belowB s args && (args.all fun a => !a.event.isDelete) && !args.isEmpty &&
    decide (s.db.lsn + 2 < 18446744073709551615)
  | .refused _ => false
  | .other (.log _) => false
  | .other o => allowedB s.db o

def allB (iv : Nat) (P : State → Serial.Op → Bool) : State → List Serial.Op → Bool
  | _, [] => true
  | s, op :: ops => P s op && match Serial.step iv s op with
    | .ok (s', _) => allB iv P s' ops
    | _ => true

theorem room_of {s : State} {args : List Arg} (h : roomB s args = true) : Room s args := by
  unfold roomB at h
  unfold Room
  simpa using h

theorem below_of {s : State} {args : List Arg} (h : belowB s args = true) : Below s args := by
  intro a ha hs
  have := List.all_eq_true.1 h a ha
  simpa [hs] using this

theorem last_of {db : Db} (hk : ∀ p, p ∉ db.known → db.slots p = {}) (h : lastB db = true) : LastHolds db := by
  have hls := lastOf_spec db db.known
  have hmem : ∀ p x, (db.slots p).part = some x → p ∈ db.known := by
    intro p x h
    by_cases hm : p ∈ db.known
    · exact hm
    · rw [hk p hm] at h; cases h
  unfold lastB at h
  cases hl : Serial.lastOf db db.known with
  | none =>
    rw [hl] at hls
    left
    intro p x hx
    have := hls p (hmem p x hx)
    rw [hx] at this; cases this
  | some r =>
    obtain ⟨p, x⟩ := r
    rw [hl] at hls h
    right
    refine ⟨p, x, hls.1, ?_, fun q y hy => hls.2 q (hmem q y hy) (by rw [hy]; simp)⟩
    simp only [Bool.or_eq_true, Bool.not_eq_true', List.isEmpty_eq_false_iff] at h
    rcases h with h | h
    · exact .inl h
    · cases hf : x.file with
      | none => rw [hf] at h; cases h
      | some f => rw [hf] at h; exact .inr ⟨f, rfl, by simpa using h⟩

theorem tame_of {iv : Nat} {s : State} (hf : Fresh iv s) {op : Serial.Op} (h : tameB iv s op = true) : Tame iv s op := by
  cases op with
  | write args =>
    simp only [tameB, Bool.and_eq_true] at h
    exact ⟨room_of h.1, below_of h.2⟩
  | refused args =>
    simp only [tameB, Bool.and_eq_true] at h
    exact ⟨room_of h.1, below_of h.2⟩
  | other o =>
    cases o with
    | crash =>
      intro db hr
      simp only [tameB, hr] at h
      exact last_of (holds_restart (placed_closed iv true) (each_reopens _) hf.placed hr).known h
    | log es => cases h
    | _ => trivial

theorem tame_all {iv : Nat} : ∀ (ops : List Serial.Op) {s : State}, Fresh iv s → allB iv (tameB iv) s ops = true → All iv (Tame iv) s ops
  | [], _, _, _ => trivial
  | op :: ops, s, hf, h => by
    unfold allB at h
    rw [Bool.and_eq_true] at h
    have ht := tame_of hf h.1
    refine ⟨ht, ?_⟩
    intro s' ids hs
    have h2 := h.2
    rw [hs] at h2
    exact tame_all ops (fresh_step hf ht hs) h2

theorem plain_all {iv : Nat} : ∀ (ops : List Serial.Op) {s : State} {ids : List Nat}, Known iv s ids → allB iv plainB s ops = true → All iv Plain s ops
  | [], _, _, _, _ => trivial
  | op :: ops, s, ids, hk, h => by
    unfold allB at h
    rw [Bool.and_eq_true] at h
    have ht : Plain s op := by
      have h1 := h.1
      cases op with
      | write args =>
        simp only [plainB, Bool.and_eq_true, List.all_eq_true, Bool.not_eq_true', List.isEmpty_eq_false_iff] at h1
        exact ⟨room_of h1.1.1.1.1, below_of h1.1.1.1.2, h1.1.1.2, h1.1.2, of_decide_eq_true h1.2⟩
      | refused args => cases h1
      | other o =>
        obtain ⟨H, n, hi, _⟩ := hk.hist
        cases o with
        | log es => cases h1
        | commit => exact allowed_of (op := .commit) hi h1
        | rotate => exact allowed_of (op := .rotate) hi h1
        | gc => exact allowed_of (op := .gc) hi h1
        | begin_ p => exact allowed_of (op := .begin_ p) hi h1
        | merge p => exact allowed_of (op := .merge p) hi h1
        | fail p => exact allowed_of (op := .fail p) hi h1
        | apply_ p => exact allowed_of (op := .apply_ p) hi h1
        | complete p => exact allowed_of (op := .complete p) hi h1
        | delete p => exact allowed_of (op := .delete p) hi h1
        | finish p => exact allowed_of (op := .finish p) hi h1
        | dropFile p => exact allowed_of (op := .dropFile p) hi h1
        | dropRef p => exact allowed_of (op := .dropRef p) hi h1
        | crash => exact allowed_of (op := .crash) hi h1
    refine ⟨ht, ?_⟩
    intro s' ids' hs
    have h2 := h.2
    rw [hs] at h2
    exact plain_all ops (known_step hk ht hs) h2

/-- A wrong id shows that the property is false. -/
theorem not_next {iv : Nat} {s : State} {ids : List Nat} {args : List Arg} {i j : Nat} (hi : i ∈ given s.ssn args) (hj : j ∈ ids) (h : i ≤ j) :
    ¬ Next iv s ids args := by
  intro hn
  have := (hn.1 i hi).1 j hj
  omega

theorem not_next_view {iv : Nat} {s : State} {ids : List Nat} {args : List Arg} {i : Nat} {k : Nat × List UInt8} (hi : i ∈ given s.ssn args)
    (hk : (view iv s.db k).isSome) (h : i ≤ k.1) : ¬ Next iv s ids args := by
  intro hn
  have := (hn.1 i hi).2 k hk
  omega

end Verif.C29
