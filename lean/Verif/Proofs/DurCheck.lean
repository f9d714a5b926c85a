import Verif.Proofs.DurRun

/-! Helper: deciding that a concrete history is safe. -/
namespace Verif.Dur
open Wal (Rec)

def allowedB (db : Db) : Op → Bool
  | .log es => !es.isEmpty && decide (db.lsn + 2 < 18446744073709551615)
  | .gc => db.pending.isNone && db.known.all fun p =>
    match (db.slots p).part with
    | none => true
    | some x => !x.phase.open_
  | .fail _ => false
  | .dropFile _ => false
  | .dropRef _ => false
  | _ => true

def safeB (iv : Nat) : List Op → Db → Bool
  | [], _ => true
  | op :: ops, db =>
    allowedB db op &&
    match step iv db op with
    | .ok db' => safeB iv ops db'
    | _ => false

theorem allowed_of {iv n : Nat} {db : Db} {H : List Rec} (h : Inv iv db H n) {op : Op} (ha : allowedB db op = true) :
    Allowed db op := by
  cases op with
  | log es =>
    simp only [allowedB, Bool.and_eq_true, decide_eq_true_eq, Bool.not_eq_true', List.isEmpty_eq_false_iff] at ha
    exact ha
  | gc =>
    simp only [allowedB, Bool.and_eq_true, Option.isNone_iff_eq_none, List.all_eq_true] at ha
    refine ⟨ha.1, ?_⟩
    intro p x hx
    by_cases hp : p ∈ db.known
    · have := ha.2 p hp
      rw [hx] at this
      simpa using this
    · rw [h.known p hp] at hx
      cases hx
  | fail _ => cases ha
  | dropFile _ => cases ha
  | dropRef _ => cases ha
  | _ => trivial

theorem safe_of {iv : Nat} : ∀ (ops : List Op) {n : Nat} {db : Db} {H : List Rec}, Inv iv db H n →
    safeB iv ops db = true → Safe iv db ops := by
  intro ops
  induction ops with
  | nil => intro n db H _ _; trivial
  | cons op ops ih =>
    intro n db H h hs
    unfold safeB at hs
    rw [Bool.and_eq_true] at hs
    have ha := allowed_of h hs.1
    refine ⟨ha, ?_⟩
    intro db' hd
    obtain ⟨db2, h1, n', h2⟩ := step_inv h ha
    rw [hd] at h1
    have := Res.ok.inj h1
    subst this
    have h3 := hs.2
    rw [hd] at h3
    exact ih h2 h3

theorem safe_init {iv : Nat} {ops : List Op} (h : safeB iv ops Dur.init = true) : Safe iv Dur.init ops :=
  safe_of ops (init_inv iv) h

end Verif.Dur
