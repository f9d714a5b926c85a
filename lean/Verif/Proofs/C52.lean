import Verif.Proofs.DurRun
import Verif.Spec.C52

/-! Helper lemmas for C52. -/
namespace Verif.Dur
open Wal (Rec)

theorem onPart_some {db : Db} {p : Nat} {x : Part} {f : Part → Files → Option (Part × Files)}
    (hx : (db.slots p).part = some x) {x' : Part} {fs' : Files} (hf : f x (db.slots p).files = some (x', fs')) :
    onPart db p f = db.set p { part := some x', files := fs' } := by
  unfold onPart
  dsimp only
  rw [hx]
  dsimp only
  rw [hf]

theorem set_known {db : Db} {p : Nat} (s : Slot) (h : p ∈ db.known) : (db.set p s).known = db.known := by
  unfold Db.set
  simp only
  rw [if_pos h]

theorem set_set (db : Db) (p : Nat) (s t : Slot) (h : p ∈ db.known) : (db.set p s).set p t = db.set p t := by
  unfold Db.set
  simp only [if_pos h]
  congr 1
  funext q
  by_cases hq : q = p <;> simp [hq]

theorem set_get (db : Db) (p : Nat) (s : Slot) : (db.set p s).slots p = s := by
  rw [set_slots, if_pos rfl]

/-- A refresh without interruption. -/
theorem refresh_eq {iv p : Nat} {db : Db} {x : Part} (hp : db.pending = none) (hk : p ∈ db.known)
    (hx : (db.slots p).part = some x) (hi : x.phase = .idle) (he : x.prev = {}) :
    refresh iv db p = db.set p
      { part := some { file := some (mergeFile { x with act := {}, prev := x.act, phase := .begun }) },
        files := { id_ := some (mergeFile { x with act := {}, prev := x.act, phase := .begun }) } } := by
  have hh : ∀ d : Db, d.pending = none → held iv d p = false := by
    intro d hd
    unfold held
    rw [hd]
  have s1 : begin_ iv db p = db.set p
      { part := some { x with act := {}, prev := x.act, phase := .begun }, files := (db.slots p).files } := by
    unfold begin_
    rw [hh db hp]
    simp only [Bool.false_eq_true, if_false]
    apply onPart_some hx
    rw [if_pos hi, he]
  generalize hm : mergeFile { x with act := {}, prev := x.act, phase := .begun } = f
  have s2 : merge (begin_ iv db p) p = db.set p
      { part := some { x with act := {}, prev := x.act, phase := .merged f },
        files := { (db.slots p).files with incomplete := true } } := by
    rw [s1]
    unfold merge
    rw [onPart_some (x := { x with act := {}, prev := x.act, phase := .begun }) (by rw [set_get])
      (by rw [if_pos rfl]), set_set _ _ _ _ hk, set_get, hm]
  have s3 : apply_ iv (merge (begin_ iv db p) p) p = db.set p
      { part := some { file := some f, act := {}, prev := {}, phase := .applied f },
        files := { (db.slots p).files with incomplete := true } } := by
    rw [s2]
    unfold apply_
    rw [hh]
    · simp only [Bool.false_eq_true, if_false]
      rw [onPart_some (x := { x with act := {}, prev := x.act, phase := .merged f }) (by rw [set_get]) rfl,
        set_set _ _ _ _ hk, set_get]
    · exact hp
  have s4 : complete (apply_ iv (merge (begin_ iv db p) p) p) p = db.set p
      { part := some { file := some f, act := {}, prev := {}, phase := .completed f },
        files := { (db.slots p).files with
          incomplete := false
          complete := some f } } := by
    rw [s3]
    unfold complete
    rw [onPart_some (x := { file := some f, act := {}, prev := {}, phase := .applied f }) (by rw [set_get]) rfl,
      set_set _ _ _ _ hk, set_get]
  have s5 : delete (complete (apply_ iv (merge (begin_ iv db p) p) p) p) p = db.set p
      { part := some { file := some f, act := {}, prev := {}, phase := .deleted f },
        files := { id_ := none, incomplete := false, complete := some f } } := by
    rw [s4]
    unfold delete
    rw [onPart_some (x := { file := some f, act := {}, prev := {}, phase := .completed f }) (by rw [set_get]) rfl,
      set_set _ _ _ _ hk, set_get]
  unfold refresh
  rw [s5]
  unfold finish
  rw [onPart_some (x := { file := some f, act := {}, prev := {}, phase := .deleted f }) (by rw [set_get]) rfl,
    set_set _ _ _ _ hk, set_get]

/-- The partition has no data in memory. -/
def Clean (s : Slot) : Prop := ∀ x, s.part = some x → x.act.lsnMin = 18446744073709551615 ∧ x.act.tbl = [] ∧ x.prev = {}

theorem refresh_inv {iv n : Nat} {db : Db} {H : List Rec} (h : Inv iv db H n) (p : Nat) : Inv iv (refresh iv db p) H n :=
  finish_inv (delete_inv (complete_inv (apply_inv (merge_inv (begin_inv h p) p) p) p) p) p

theorem checkpoint_fold {iv n : Nat} {H : List Rec} : ∀ (ps : List Nat) (db : Db), Inv iv db H n → C52.Quiet db →
    (∀ p ∈ ps, p ∈ db.known) →
    ∃ db', ps.foldl (fun db p =>
      match (db.slots p).part with
      | none => db
      | some x => if x.act.tbl = [] then db else refresh iv db p) db = db' ∧
      Inv iv db' H n ∧ C52.Quiet db' ∧ db'.wal = db.wal ∧ db'.known = db.known ∧
      (∀ p, p ∈ ps ∨ Clean (db.slots p) → Clean (db'.slots p)) := by
  intro ps
  induction ps with
  | nil =>
    intro db h hq _
    exact ⟨db, rfl, h, hq, rfl, rfl, fun p hp => hp.elim (by simp) id⟩
  | cons p ps ih =>
    intro db h hq hk
    rw [List.foldl_cons]
    cases hx : (db.slots p).part with
    | none =>
      obtain ⟨db', h1, h2, h3, h4, h5, h6⟩ := ih db h hq fun q hq => hk q (by simp [hq])
      refine ⟨db', h1, h2, h3, h4, h5, ?_⟩
      intro q hqq
      apply h6
      rcases hqq with hqq | hqq
      · rcases List.mem_cons.1 hqq with rfl | hqq
        · right
          intro x hx'
          rw [hx] at hx'
          cases hx'
        · exact .inl hqq
      · exact .inr hqq
    | some x =>
      have hi := hq.2 p (hk p (by simp)) x hx
      have hpart := (h.slots p).part
      rw [partOr_some hx] at hpart
      have he : x.prev = {} := hpart.empty (by simp [hi]) (by simp [hi])
      simp only
      by_cases ht : x.act.tbl = []
      · rw [if_pos ht]
        obtain ⟨db', h1, h2, h3, h4, h5, h6⟩ := ih db h hq fun q hq => hk q (by simp [hq])
        refine ⟨db', h1, h2, h3, h4, h5, ?_⟩
        intro q hqq
        apply h6
        rcases hqq with hqq | hqq
        · rcases List.mem_cons.1 hqq with rfl | hqq
          · right
            intro y hy
            rw [hx] at hy
            cases hy
            refine ⟨?_, ht, he⟩
            rcases hpart.mini with hm | hm
            · exact hm
            · exact absurd ht hm
          · exact .inl hqq
        · exact .inr hqq
      · rw [if_neg ht]
        have hpk := hk p (by simp)
        have hre := refresh_eq (iv := iv) hq.1 hpk hx hi he
        have hkn : (refresh iv db p).known = db.known := by rw [hre, set_known _ hpk]
        have hwal : (refresh iv db p).wal = db.wal := by rw [hre]; rfl
        have hsl : ∀ q, (refresh iv db p).slots q = if q = p then
            { part := some { file := some (mergeFile { x with act := {}, prev := x.act, phase := .begun }) },
              files := { id_ := some (mergeFile { x with act := {}, prev := x.act, phase := .begun }) } }
            else db.slots q := by
          intro q
          rw [hre, set_slots]
        have hquiet : C52.Quiet (refresh iv db p) := by
          refine ⟨by rw [hre]; exact hq.1, ?_⟩
          intro q hqk y hy
          rw [hkn] at hqk
          rw [hsl] at hy
          by_cases hqp : q = p
          · rw [if_pos hqp] at hy
            have := Option.some.inj hy
            rw [← this]
          · rw [if_neg hqp] at hy
            exact hq.2 q hqk y hy
        obtain ⟨db', h1, h2, h3, h4, h5, h6⟩ := ih (refresh iv db p) (refresh_inv h p) hquiet
          fun q hq => by rw [hkn]; exact hk q (by simp [hq])
        refine ⟨db', h1, h2, h3, h4.trans hwal, h5.trans hkn, ?_⟩
        intro q hqq
        apply h6
        by_cases hqp : q = p
        · right
          rw [hsl, if_pos hqp]
          intro y hy
          have := Option.some.inj hy
          rw [← this]
          exact ⟨rfl, rfl, rfl⟩
        · rcases hqq with hqq | hqq
          · rcases List.mem_cons.1 hqq with rfl | hqq
            · exact absurd rfl hqp
            · exact .inl hqq
          · right
            rw [hsl, if_neg hqp]
            exact hqq

theorem gcCount_all (m : Nat) : ∀ (l : List Nat), (∀ x ∈ l, x ≤ m) → Wal.gcCount m l = l.length - 1 := by
  intro l
  fun_induction Wal.gcCount m l with
  | case1 x y l h ih =>
    intro hl
    rw [ih fun z hz => hl z (by simp [hz])]
    simp
  | case2 x y l h =>
    intro hl
    exact absurd (hl y (by simp)) h
  | case3 l h =>
    intro _
    cases l with
    | nil => rfl
    | cons a l =>
      cases l with
      | nil => rfl
      | cons b l => exact absurd rfl (h a b l)

theorem lsnMin_clean (db : Db) (h : ∀ p, Clean (db.slots p)) : lsnMin db = 18446744073709551615 := by
  unfold lsnMin
  generalize db.known = l
  have : ∀ (l : List Nat), l.foldl (fun m p =>
      match (db.slots p).part with
      | none => m
      | some x =>
        let m := if x.act.lsnMin < m then x.act.lsnMin else m
        if x.prev.lsnMin < m then x.prev.lsnMin else m) 18446744073709551615 = 18446744073709551615 := by
    intro l
    induction l with
    | nil => rfl
    | cons p l ih =>
      rw [List.foldl_cons]
      cases hx : (db.slots p).part with
      | none => exact ih
      | some x =>
        obtain ⟨h1, _, h3⟩ := h p x hx
        have h4 : x.prev.lsnMin = 18446744073709551615 := by rw [h3]
        simp only
        rw [h1, h4]
        simp only [Nat.lt_irrefl, if_false]
        exact ih
  exact this l

end Verif.Dur
