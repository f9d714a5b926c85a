import Verif.Proofs.DurRun
import Verif.Spec.C86

/-! Helper lemmas for C86: restarts with drop records in the log. -/
namespace Verif.Dur
open Wal (Rec)

/-! Steps of one partition. -/

def partStep (f : Part → Files → Option (Part × Files)) (s : Slot) : Slot :=
  match s.part with
  | none => s
  | some x =>
    match f x s.files with
    | none => s
    | some (x', fs') => { part := some x', files := fs' }

theorem onPart_slots (db : Db) (p : Nat) (f : Part → Files → Option (Part × Files)) (q : Nat) :
    (onPart db p f).slots q = if q = p then partStep f (db.slots p) else db.slots q := by
  unfold onPart partStep
  dsimp only
  cases hs : (db.slots p).part with
  | none =>
    dsimp only
    split
    · rename_i h
      rw [h]
    · rfl
  | some x =>
    dsimp only
    cases hf : f x (db.slots p).files with
    | none =>
      dsimp only
      split
      · rename_i h
        rw [h]
      · rfl
    | some r => rfl

theorem onPart_known {db : Db} (h : ∀ p, p ∉ db.known → db.slots p = {}) (p : Nat)
    (f : Part → Files → Option (Part × Files)) : ∀ q, q ∉ (onPart db p f).known → (onPart db p f).slots q = {} := by
  unfold onPart
  dsimp only
  split
  · exact h
  · split
    · exact h
    · exact known_set h p _

/-! Replaying. -/

def dropOne (s : Slot) : Slot :=
  match s.part with
  | none => s
  | some x => if x.phase = .idle then { part := none, files := { s.files with id_ := none } } else s

def recOne (iv q : Nat) (s : Slot) : Rec → Slot
  | .write l _ es => (es.map fun e => (l, e)).foldl (replayOne iv q) s
  | .drop _ p => if q = p then dropOne s else s

/-- Records appended to the current file. -/
def plus (db : Db) (ext : List Rec) : List (Nat × List Rec) :=
  db.wal.map fun f => if f.1 = db.cur then (f.1, f.2 ++ ext) else f

theorem plus_nil (db : Db) : plus db [] = db.wal := by
  unfold plus
  rw [List.map_congr_left (g := id)]
  · simp
  · intro f _
    split <;> simp

/-- Drops of partitions that the records drop. -/
def Again (rs ext : List Rec) : Prop := ∀ x ∈ ext, ∃ l l' p, Rec.drop l p ∈ rs ∧ x = .drop l' p

theorem held_none {db : Db} (h : db.pending = none) (iv p : Nat) : held iv db p = false := by
  unfold held
  rw [h]

theorem drop_spec {iv : Nat} {db : Db} (hp : db.pending = none) (p l : Nat) :
    (∀ q, (replayRec iv db (.drop l p)).slots q = recOne iv q (db.slots q) (.drop l p)) ∧
    (replayRec iv db (.drop l p)).pending = none ∧ (replayRec iv db (.drop l p)).cur = db.cur ∧
    (∃ ext, Again [.drop l p] ext ∧ (replayRec iv db (.drop l p)).wal = plus db ext) ∧
    ((∀ p, p ∉ db.known → db.slots p = {}) →
      ∀ q, q ∉ (replayRec iv db (.drop l p)).known → (replayRec iv db (.drop l p)).slots q = {}) := by
  have e : replayRec iv db (.drop l p) = dropRef iv (dropFile iv db p) p := rfl
  rw [e]
  have e1 : dropFile iv db p = onPart db p fun x fs =>
      if x.phase = .idle then some ({ x with file := none }, { fs with id_ := none }) else none := by
    unfold dropFile
    rw [held_none hp, if_neg (by simp)]
  obtain ⟨r1, r2, r3, r4⟩ := onPart_rest db p fun x fs =>
      if x.phase = .idle then some ({ x with file := none }, { fs with id_ := none }) else none
  have hs := onPart_slots db p fun x fs =>
      if x.phase = .idle then some ({ x with file := none }, { fs with id_ := none }) else none
  have hk : (∀ p, p ∉ db.known → db.slots p = {}) → _ := fun h => onPart_known h p fun x fs =>
      if x.phase = .idle then some ({ x with file := none }, { fs with id_ := none }) else none
  rw [← e1] at r1 r2 r3 r4 hs hk
  generalize dropFile iv db p = d at r1 r2 r3 r4 hs hk
  rw [hp] at r4
  have hsp := hs p
  rw [if_pos rfl] at hsp
  unfold partStep at hsp
  unfold dropRef
  rw [held_none r4, if_neg (by simp)]
  have plain : ∀ (h : dropOne (db.slots p) = d.slots p), 
      (∀ q, d.slots q = recOne iv q (db.slots q) (.drop l p)) ∧ d.pending = none ∧ d.cur = db.cur ∧
      (∃ ext, Again [.drop l p] ext ∧ d.wal = plus db ext) ∧
      ((∀ p, p ∉ db.known → db.slots p = {}) → ∀ q, q ∉ d.known → d.slots q = {}) := by
    intro h
    refine ⟨fun q => ?_, r4, r3, ⟨[], nofun, ?_⟩, hk⟩
    · unfold recOne
      dsimp only
      rw [hs q]
      split
      · rename_i hq
        rw [hq, h, hs p, if_pos rfl]
      · rfl
    · rw [plus_nil]
      exact r2
  cases hx : (db.slots p).part with
  | none =>
    rw [hx] at hsp
    dsimp only at hsp
    have hd : (d.slots p).part = none := by rw [hsp, hx]
    rw [hd]
    dsimp only
    apply plain
    unfold dropOne
    rw [hx, hsp]
  | some x =>
    rw [hx] at hsp
    dsimp only at hsp
    by_cases hi : x.phase = .idle
    · rw [if_pos hi] at hsp
      dsimp only at hsp
      have hd : (d.slots p).part = some { x with file := none } := by rw [hsp]
      rw [hd]
      dsimp only
      rw [if_pos ⟨hi, rfl⟩]
      refine ⟨fun q => ?_, r4, r3, ⟨[.drop (d.lsn + 1) p], ?_, ?_⟩, fun h => ?_⟩
      · show (Db.set d p _).slots q = _
        rw [set_slots]
        unfold recOne
        dsimp only
        split
        · rename_i hq
          rw [hq, hsp]
          unfold dropOne
          rw [hx]
          dsimp only
          rw [if_pos hi]
        · rename_i hq
          rw [hs q, if_neg hq]
      · intro y hy
        simp only [List.mem_singleton] at hy
        exact ⟨l, d.lsn + 1, p, by simp, hy⟩
      · show (d.wal.map fun f => if f.1 = d.cur then _ else f) = _
        rw [r2, r3]
        rfl
      · exact known_set (hk h) p _
    · rw [if_neg hi] at hsp
      dsimp only at hsp
      have hd : (d.slots p).part = some x := by rw [hsp, hx]
      rw [hd]
      dsimp only
      rw [if_neg (fun h => hi h.1)]
      apply plain
      unfold dropOne
      rw [hx, hsp]
      dsimp only
      rw [if_neg hi]

theorem plus_plus {db d : Db} {e1 e2 : List Rec} (hw : d.wal = plus db e1) (hc : d.cur = db.cur) :
    plus d e2 = plus db (e1 ++ e2) := by
  unfold plus
  rw [hw, hc]
  unfold plus
  rw [List.map_map]
  apply List.map_congr_left
  intro f _
  simp only [Function.comp]
  by_cases h : f.1 = db.cur
  · simp [h]
  · simp [h]

theorem recs_spec {iv : Nat} : ∀ (rs : List Rec) {db : Db}, db.pending = none →
    (∀ q, (rs.foldl (replayRec iv) db).slots q = rs.foldl (recOne iv q) (db.slots q)) ∧
    (rs.foldl (replayRec iv) db).pending = none ∧ (rs.foldl (replayRec iv) db).cur = db.cur ∧
    (∃ ext, Again rs ext ∧ (rs.foldl (replayRec iv) db).wal = plus db ext) ∧
    ((∀ p, p ∉ db.known → db.slots p = {}) →
      ∀ q, q ∉ (rs.foldl (replayRec iv) db).known → (rs.foldl (replayRec iv) db).slots q = {}) := by
  intro rs
  induction rs with
  | nil =>
    intro db hp
    exact ⟨fun _ => rfl, hp, rfl, ⟨[], nofun, (plus_nil db).symm⟩, id⟩
  | cons r rs ih =>
    intro db hp
    have h1 : (∀ q, (replayRec iv db r).slots q = recOne iv q (db.slots q) r) ∧
        (replayRec iv db r).pending = none ∧ (replayRec iv db r).cur = db.cur ∧
        (∃ ext, Again [r] ext ∧ (replayRec iv db r).wal = plus db ext) ∧
        ((∀ p, p ∉ db.known → db.slots p = {}) →
          ∀ q, q ∉ (replayRec iv db r).known → (replayRec iv db r).slots q = {}) := by
      cases r with
      | drop l p => exact drop_spec hp p l
      | write l m es =>
        have g := fun q => replays_slots iv l q es db
        obtain ⟨_, g2, g3, _, g5, g6⟩ := g 0
        exact ⟨fun q => (g q).1, g5.trans hp, g3, ⟨[], nofun, by rw [plus_nil]; exact g2⟩, g6⟩
    obtain ⟨a1, a2, a3, ⟨e1, a4, a5⟩, a6⟩ := h1
    rw [List.foldl_cons]
    obtain ⟨b1, b2, b3, ⟨e2, b4, b5⟩, b6⟩ := ih a2
    refine ⟨fun q => ?_, b2, b3.trans a3, ⟨e1 ++ e2, ?_, ?_⟩, fun h => b6 (a6 h)⟩
    · rw [b1, a1, List.foldl_cons]
    · intro x hx
      rcases List.mem_append.1 hx with hx | hx
      · obtain ⟨l, l', p, h1, h2⟩ := a4 x hx
        exact ⟨l, l', p, by simp only [List.mem_singleton] at h1; simp [h1], h2⟩
      · obtain ⟨l, l', p, h1, h2⟩ := b4 x hx
        exact ⟨l, l', p, by simp [h1], h2⟩
    · rw [b5, plus_plus a5 a3]

/-- The current file is the last one. -/
def CurLast (db : Db) : Prop := ∃ w rs, db.wal = w ++ [(db.cur, rs)] ∧ ∀ f ∈ w, f.1 ≠ db.cur

theorem plus_last {db : Db} {w : List (Nat × List Rec)} {rs : List Rec} (h : db.wal = w ++ [(db.cur, rs)])
    (hn : ∀ f ∈ w, f.1 ≠ db.cur) (ext : List Rec) : plus db ext = w ++ [(db.cur, rs ++ ext)] := by
  unfold plus
  rw [h, List.map_append]
  congr 1
  · rw [List.map_congr_left (g := id)]
    · simp
    · intro f hf
      rw [if_neg (hn f hf)]
      rfl
  · simp

theorem from_spec {iv : Nat} : ∀ (n i : Nat) {db : Db}, db.wal.length ≤ i + n → db.pending = none → CurLast db →
    ∃ ext ext', Again ((db.wal.drop i).flatMap (·.2)) ext ∧ Again ((db.wal.drop i).flatMap (·.2)) ext' ∧
    (∀ q, (replayFrom iv n i db).slots q =
      ((db.wal.drop i).flatMap (·.2) ++ ext).foldl (recOne iv q) (db.slots q)) ∧
    (replayFrom iv n i db).pending = none ∧ (replayFrom iv n i db).cur = db.cur ∧
    (replayFrom iv n i db).wal = plus db ext' ∧
    ((∀ p, p ∉ db.known → db.slots p = {}) →
      ∀ q, q ∉ (replayFrom iv n i db).known → (replayFrom iv n i db).slots q = {}) := by
  intro n
  induction n with
  | zero =>
    intro i db hl hp _
    rw [List.drop_eq_nil_of_le (by omega)]
    exact ⟨[], [], nofun, nofun, fun _ => rfl, hp, rfl, (plus_nil db).symm, id⟩
  | succ n ih =>
    intro i db hl hp hc
    unfold replayFrom
    cases hi : db.wal[i]? with
    | none =>
      rw [List.drop_eq_nil_of_le (List.getElem?_eq_none_iff.1 hi)]
      exact ⟨[], [], nofun, nofun, fun _ => rfl, hp, rfl, (plus_nil db).symm, id⟩
    | some f =>
      obtain ⟨hlt, hf⟩ := List.getElem?_eq_some_iff.1 hi
      obtain ⟨a1, a2, a3, ⟨e1, a4, a5⟩, a6⟩ := recs_spec (iv := iv) f.2 hp
      dsimp only
      generalize f.2.foldl (replayRec iv) db = d at a1 a2 a3 a5 a6
      obtain ⟨w, rs, hw, hn⟩ := hc
      have hw' : d.wal = w ++ [(d.cur, rs ++ e1)] := by rw [a5, plus_last hw hn, a3]
      have hlen : d.wal.length = db.wal.length := by rw [hw', hw]; simp
      obtain ⟨x, x', b1, b2, b3, b4, b5, b6, b7⟩ := ih (i + 1) (db := d) (by omega) a2 ⟨w, rs ++ e1, hw', by rw [a3]; exact hn⟩
      have hrest : ∃ e', (∀ y ∈ e', y ∈ e1) ∧
          (d.wal.drop (i + 1)).flatMap (·.2) = (db.wal.drop (i + 1)).flatMap (·.2) ++ e' := by
        rw [hw', hw]
        by_cases hiw : i + 1 ≤ w.length
        · refine ⟨e1, fun _ h => h, ?_⟩
          rw [List.drop_append_of_le_length hiw, List.drop_append_of_le_length hiw]
          simp
        · refine ⟨[], nofun, ?_⟩
          rw [List.drop_eq_nil_of_le (by simp; omega), List.drop_eq_nil_of_le (by simp; omega)]
          rfl
      obtain ⟨e', h1, h2⟩ := hrest
      have hsplit : (db.wal.drop i).flatMap (·.2) = f.2 ++ (db.wal.drop (i + 1)).flatMap (·.2) := by
        rw [List.drop_eq_getElem_cons hlt, hf, List.flatMap_cons]
      have hag : ∀ ys, Again ((d.wal.drop (i + 1)).flatMap (·.2)) ys → Again ((db.wal.drop i).flatMap (·.2)) ys := by
        intro ys h y hy
        obtain ⟨l, l', p, g1, g2⟩ := h y hy
        rw [h2] at g1
        rcases List.mem_append.1 g1 with g1 | g1
        · exact ⟨l, l', p, by rw [hsplit]; simp only [List.mem_append]; exact .inr g1, g2⟩
        · obtain ⟨l2, l3, p', g3, g4⟩ := a4 _ (h1 _ g1)
          cases g4
          exact ⟨l2, l', p, by rw [hsplit]; simp [g3], g2⟩
      have hag1 : ∀ ys, (∀ y ∈ ys, y ∈ e1) → Again ((db.wal.drop i).flatMap (·.2)) ys := by
        intro ys h y hy
        obtain ⟨l, l', p, g1, g2⟩ := a4 y (h y hy)
        exact ⟨l, l', p, by rw [hsplit]; simp [g1], g2⟩
      have happ : ∀ {rs xs ys}, Again rs xs → Again rs ys → Again rs (xs ++ ys) := by
        intro rs xs ys h1 h2 y hy
        rcases List.mem_append.1 hy with hy | hy
        · exact h1 y hy
        · exact h2 y hy
      refine ⟨e' ++ x, e1 ++ x', happ (hag1 e' h1) (hag x b1), happ (hag1 e1 fun _ h => h) (hag x' b2), fun q => ?_, b4,
        b5.trans a3, ?_, fun h => b7 (a6 h)⟩
      · rw [b3, a1, ← List.foldl_append, hsplit, h2]
        simp only [List.append_assoc]
      · rw [b6, plus_plus a5 a3]

theorem restart_spec {iv : Nat} {db : Db} (hd : ∀ p, DiskOK (partOr (db.slots p)) (db.slots p).files)
    (hk : ∀ p, p ∉ db.known → db.slots p = {}) (hc : CurLast db) :
    ∃ db' ext ext', restart iv db = .ok db' ∧ Again (db.wal.flatMap (·.2)) ext ∧ Again (db.wal.flatMap (·.2)) ext' ∧
    (∀ q, db'.slots q = (db.wal.flatMap (·.2) ++ ext).foldl (recOne iv q) (recSlot (db.slots q))) ∧
    db'.pending = none ∧ db'.cur = db.cur ∧ db'.wal = plus db ext' ∧ (∀ p, p ∉ db'.known → db'.slots p = {}) := by
  obtain ⟨db1, h1, h2, h3, h4, h5, _, _⟩ := recoverAll_spec db hd db.known
  have hslot : ∀ q, db1.slots q = recSlot (db.slots q) := by
    intro q
    rw [h2]
    split
    · rfl
    · rename_i hq
      rw [hk q hq]
      rfl
  have hknown : ∀ p, p ∉ db1.known → db1.slots p = {} := by
    intro p hp
    rw [hslot, hk p (h3 p hp)]
    rfl
  obtain ⟨w, rs, hw, hn⟩ := hc
  have hgl : db1.wal.getLast? = some (db.cur, rs) := by
    rw [h4, hw, List.getLast?_append]
    rfl
  have e1 : restart iv db = .ok (replayFrom iv db1.wal.length 0 { db1 with cur := db.cur }) := by
    unfold restart
    rw [h1, Res.bind_ok]
    simp only [hgl]
  obtain ⟨x, x', b1, b2, b3, b4, b5, b6, b7⟩ := from_spec (iv := iv) db1.wal.length 0 (db := { db1 with cur := db.cur })
    (by simp) h5 ⟨w, rs, by rw [← hw]; exact h4, hn⟩
  dsimp only at b1 b2 b3 b5 b6 b7
  rw [h4, List.drop_zero] at b1 b2
  refine ⟨_, x, x', e1, b1, b2, fun q => ?_, b4, b5, ?_, b7 hknown⟩
  · rw [b3, h4, List.drop_zero, hslot]
  · rw [b6]
    unfold plus
    dsimp only
    rw [h4]

end Verif.Dur
