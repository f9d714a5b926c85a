import Verif.Proofs.DurBase

/-! Helper definitions and lemmas: what holds of the database after every step of
a history without failures and drops. -/
namespace Verif.Dur
open Wal (Rec)

def lsnOf : Option PFile → Nat
  | none => 0
  | some f => f.lsn

def fget : Option PFile → Key → Option Event
  | none, _ => none
  | some f, k => tget f.tbl k

def partOr (s : Slot) : Part :=
  match s.part with
  | none => {}
  | some x => x

/-- The file a restart takes. -/
def dur (fs : Files) : Option PFile :=
  match fs.id_ with
  | some f => some f
  | none => fs.complete

def top (x : Part) : Nat := max (lsnOf x.file) x.prev.lsnMax

def FileOK (iv : Nat) (H : List Rec) (p : Nat) (f : Option PFile) : Prop :=
  ∀ k : Key, partOf iv k.1 = p → fget f k = live (vl (fun l => decide (l ≤ lsnOf f)) (evs H) k)

structure PartOK (iv : Nat) (H : List Rec) (lsn : Nat) (pend : Nat → Prop) (p : Nat) (x : Part) : Prop where
  file : FileOK iv H p x.file
  prev : ∀ k : Key, partOf iv k.1 = p →
    tget x.prev.tbl k = vl (fun l => decide (lsnOf x.file < l) && decide (l ≤ top x)) (evs H) k
  act : ∀ k : Key, partOf iv k.1 = p → tget x.act.tbl k = vl (fun l => decide (top x < l)) (evs H) k
  range : ∀ y ∈ evs H, partOf iv y.2.id = p → top x < y.1 → ¬ pend y.1 →
    x.act.lsnMin ≤ y.1 ∧ y.1 ≤ x.act.lsnMax
  prevMin : ∀ y ∈ evs H, partOf iv y.2.id = p → lsnOf x.file < y.1 → y.1 ≤ top x → x.prev.lsnMin ≤ y.1
  fb : lsnOf x.file ≤ lsn
  pb : x.prev.lsnMax ≤ lsn
  ab : x.act.lsnMax ≤ lsn
  empty : x.phase ≠ .begun → (∀ f, x.phase ≠ .merged f) → x.prev = {}
  merged : ∀ f, x.phase = .merged f → f = mergeFile x
  after : ∀ f, x.phase = .applied f ∨ x.phase = .completed f ∨ x.phase = .deleted f → x.file = some f
  held : ∀ y ∈ evs H, partOf iv y.2.id = p → pend y.1 → top x < y.1
  mini : x.act.lsnMin = 18446744073709551615 ∨ x.act.tbl ≠ []

/-- The files on disk in every phase of a refresh. -/
def DiskOK (x : Part) (fs : Files) : Prop :=
  match x.phase with
  | .idle => fs.complete = none ∧ fs.id_ = x.file
  | .begun => fs.complete = none ∧ fs.id_ = x.file
  | .merged _ => fs.complete = none ∧ fs.id_ = x.file
  | .applied _ => fs.complete = none
  | .completed f => fs.complete = some f ∧ fs.incomplete = false
  | .deleted f => fs.id_ = none ∧ fs.complete = some f ∧ fs.incomplete = false

structure SlotOK (iv : Nat) (H : List Rec) (lsn : Nat) (pend : Nat → Prop) (p : Nat) (s : Slot) : Prop where
  part : PartOK iv H lsn pend p (partOr s)
  disk : DiskOK (partOr s) s.files
  durOK : FileOK iv H p (dur s.files)
  durB : lsnOf (dur s.files) ≤ lsnOf (partOr s).file

theorem recover_eq {x : Part} {fs : Files} (h : DiskOK x fs) : recover fs = .ok (dur fs) := by
  unfold DiskOK at h
  obtain ⟨i, b, c⟩ := fs
  unfold recover dur
  cases hx : x.phase <;> rw [hx] at h <;> simp only at h <;> cases i <;> cases b <;> cases c <;> simp_all

theorem dur_eq {iv lsn p : Nat} {H : List Rec} {pend : Nat → Prop} {x : Part} {fs : Files}
    (hp : PartOK iv H lsn pend p x) (h : DiskOK x fs) (ho : x.phase.open_ = false) : dur fs = x.file := by
  unfold DiskOK at h
  unfold dur
  cases hx : x.phase with
  | idle | begun | merged _ =>
    rw [hx] at h
    obtain ⟨h1, h2⟩ := h
    rw [h1, h2]
    cases x.file <;> rfl
  | applied f => rw [hx] at ho; cases ho
  | completed f => rw [hx] at ho; cases ho
  | deleted f =>
    rw [hx] at h
    obtain ⟨h1, h2, _⟩ := h
    rw [h1, h2]
    exact (hp.after f (.inr (.inr hx))).symm

/-- The last record of a history. -/
def lastLsn (H : List Rec) : Nat :=
  match H.getLast? with
  | none => 0
  | some r => r.lsn

def pend (db : Db) (l : Nat) : Prop := ∃ es, db.pending = some (l, es)

structure Inv0 (iv : Nat) (db : Db) (H : List Rec) (n : Nat) : Prop where
  writes : OnlyWrites H
  asc : H.Pairwise fun a b => a.lsn < b.lsn
  last : lastLsn H ≤ db.lsn
  nle : n ≤ H.length
  wal : db.wal.flatMap (·.2) = H.drop n
  files : db.wal.Pairwise fun f g => f.1 < g.1 ∧ ∀ r ∈ f.2, r.lsn < g.1
  ids : ∀ f ∈ db.wal, ∀ r ∈ f.2, f.1 ≤ r.lsn
  cur : ∃ w rs, db.wal = w ++ [(db.cur, rs)]
  curLe : db.cur ≤ db.lsn + 1
  slots : ∀ p, SlotOK iv H db.lsn (pend db) p (db.slots p)
  cover : ∀ y ∈ evs (H.take n), y.1 ≤ lsnOf (dur (db.slots (partOf iv y.2.id)).files)
  known : ∀ p, p ∉ db.known → db.slots p = {}
  pending : ∀ l es, db.pending = some (l, es) → ∃ H0 m, H = H0 ++ [.write l m es]

/-- Nothing but the batches of the history has been numbered. -/
structure Inv (iv : Nat) (db : Db) (H : List Rec) (n : Nat) : Prop extends Inv0 iv db H n where
  eq : db.lsn = lastLsn H

theorem lastLsn_append (H : List Rec) (r : Rec) : lastLsn (H ++ [r]) = r.lsn := by
  unfold lastLsn
  rw [List.getLast?_append]
  rfl

theorem le_last {H : List Rec} (h : H.Pairwise fun a b => a.lsn < b.lsn) {r : Rec} (hr : r ∈ H) : r.lsn ≤ lastLsn H := by
  rcases List.eq_nil_or_concat H with rfl | ⟨H0, r0, rfl⟩
  · simp at hr
  · rw [List.concat_eq_append] at h hr ⊢
    rw [lastLsn_append]
    rw [List.pairwise_append] at h
    rcases List.mem_append.1 hr with hr | hr
    · have := h.2.2 r hr r0 (by simp)
      omega
    · simp only [List.mem_singleton] at hr
      rw [hr]
      exact Nat.le_refl _

theorem evs_le {H : List Rec} (h : H.Pairwise fun a b => a.lsn < b.lsn) {y : Nat × Event} (hy : y ∈ evs H) :
    y.1 ≤ lastLsn H := by
  obtain ⟨r, hr, e, _⟩ := evs_lsn hy
  have := le_last h hr
  omega

theorem evs_pos {H : List Rec} (h : OnlyWrites H) {y : Nat × Event} (hy : y ∈ evs H) : 1 ≤ y.1 := by
  obtain ⟨r, hr, e, _⟩ := evs_lsn hy
  obtain ⟨l, n, es, rfl, _, h1⟩ := h r hr
  have e : l = y.1 := e
  omega

theorem vl_mem_ne_none {P : Nat → Bool} {xs : List (Nat × Event)} {y : Nat × Event} (hy : y ∈ xs) (hP : P y.1 = true) :
    vl P xs y.2.pair ≠ none := by
  unfold vl
  rw [Ne, Option.map_eq_none_iff, List.getLast?_eq_none_iff, List.filter_eq_nil_iff]
  intro h
  exact h y hy (by simp [hP])

theorem partOr_some {s : Slot} {x : Part} (h : s.part = some x) : partOr s = x := by unfold partOr; rw [h]

theorem partOr_none {s : Slot} (h : s.part = none) : partOr s = {} := by unfold partOr; rw [h]

/-- A partition with events is in memory. -/
theorem has {iv lsn p : Nat} {H : List Rec} {q : Nat → Prop} {s : Slot} (hw : OnlyWrites H) (h : SlotOK iv H lsn q p s)
    {y : Nat × Event} (hy : y ∈ evs H) (hp : partOf iv y.2.id = p) : ∃ x, s.part = some x := by
  cases hs : s.part with
  | some x => exact ⟨x, rfl⟩
  | none =>
    exfalso
    have h1 := h.part.act y.2.pair hp
    rw [partOr_none hs] at h1
    have h2 : top ({} : Part) < y.1 := by
      have := evs_pos hw hy
      have e : top ({} : Part) = 0 := rfl
      omega
    exact vl_mem_ne_none hy (P := fun l => decide (top ({} : Part) < l)) (by simpa using h2) h1.symm

/-- Everything in a partition. -/
theorem part_content {iv lsn p : Nat} {H : List Rec} {q : Nat → Prop} {x : Part} (hs : Asc (evs H))
    (h : PartOK iv H lsn q p x) (k : Key) (hk : partOf iv k.1 = p) :
    live (((tget x.act.tbl k).or (tget x.prev.tbl k)).or (fget x.file k)) = live (vl (fun _ => true) (evs H) k) := by
  rw [Option.or_assoc, h.act k hk, h.prev k hk, h.file k hk, vl_split hs (fun _ => true) (top x)]
  simp only [Bool.true_and]
  rw [vl_split hs (fun l => decide (l ≤ top x)) (lsnOf x.file)]
  have e1 : vl (fun l => decide (l ≤ top x) && decide (lsnOf x.file < l)) (evs H) k =
      vl (fun l => decide (lsnOf x.file < l) && decide (l ≤ top x)) (evs H) k :=
    vl_congr fun y _ _ => Bool.and_comm _ _
  have e2 : vl (fun l => decide (l ≤ top x) && decide (l ≤ lsnOf x.file)) (evs H) k =
      vl (fun l => decide (l ≤ lsnOf x.file)) (evs H) k := by
    apply vl_congr
    intro y _ _
    have : lsnOf x.file ≤ top x := Nat.le_max_left _ _
    by_cases hy : y.1 ≤ lsnOf x.file
    · simp [hy, Nat.le_trans hy this]
    · simp [hy]
  rw [e1, e2, ← Option.or_assoc, ← Option.or_assoc, live_or_live]

theorem view_content0 {iv n : Nat} {db : Db} {H : List Rec} (h : Inv0 iv db H n) (k : Key) :
    view iv db k = content iv H k := by
  have h1 := part_content (asc_evs H h.asc) (h.slots (partOf iv k.1)).part k rfl
  unfold content
  rw [version_vl iv k H h.writes]
  show _ = live _
  rw [← h1]
  unfold view
  cases hs : (db.slots (partOf iv k.1)).part with
  | none => rw [partOr_none hs]; rfl
  | some x =>
    rw [partOr_some hs]
    simp only [live]
    cases x.file <;> rfl

/-! Steps of a partition. -/

theorem set_slots (db : Db) (p : Nat) (s : Slot) (q : Nat) : (db.set p s).slots q = if q = p then s else db.slots q := rfl

theorem known_set {db : Db} (h : ∀ p, p ∉ db.known → db.slots p = {}) (p : Nat) (s : Slot) :
    ∀ q, q ∉ (db.set p s).known → (db.set p s).slots q = {} := by
  intro q hq
  have hne : q ≠ p := by
    rintro rfl
    apply hq
    unfold Db.set
    simp only
    by_cases hk : q ∈ db.known <;> simp [hk]
  rw [set_slots, if_neg hne]
  apply h
  intro hk
  apply hq
  unfold Db.set
  simp only
  by_cases hp : p ∈ db.known <;> simp [hp, hk]

/-- A step that changes one partition. -/
theorem set_inv0 {iv n p : Nat} {db : Db} {H : List Rec} (h : Inv0 iv db H n) {s : Slot}
    (hs : SlotOK iv H db.lsn (pend db) p s) (hd : lsnOf (dur (db.slots p).files) ≤ lsnOf (dur s.files)) :
    Inv0 iv (db.set p s) H n := by
  constructor
  · exact h.writes
  · exact h.asc
  · exact h.last
  · exact h.nle
  · exact h.wal
  · exact h.files
  · exact h.ids
  · exact h.cur
  · exact h.curLe
  · intro q
    rw [set_slots]
    by_cases hq : q = p
    · rw [if_pos hq, hq]
      exact hs
    · rw [if_neg hq]
      exact h.slots q
  · intro y hy
    have h1 := h.cover y hy
    rw [set_slots]
    by_cases hq : partOf iv y.2.id = p
    · rw [if_pos hq]
      rw [hq] at h1
      omega
    · rw [if_neg hq]
      exact h1
  · exact known_set h.known p s
  · exact h.pending

/-- A step of one partition that exists. -/
theorem onPart_inv0 {iv n p : Nat} {db : Db} {H : List Rec} (h : Inv0 iv db H n)
    {f : Part → Files → Option (Part × Files)}
    (hf : ∀ x fs x' fs', f x fs = some (x', fs') → (db.slots p).part = some x → fs = (db.slots p).files →
      PartOK iv H db.lsn (pend db) p x → DiskOK x fs →
      FileOK iv H p (dur fs) → lsnOf (dur fs) ≤ lsnOf x.file →
      PartOK iv H db.lsn (pend db) p x' ∧ DiskOK x' fs' ∧ FileOK iv H p (dur fs') ∧
        lsnOf (dur fs') ≤ lsnOf x'.file ∧ lsnOf (dur fs) ≤ lsnOf (dur fs')) :
    Inv0 iv (onPart db p f) H n := by
  unfold onPart
  cases hs : (db.slots p).part with
  | none =>
    dsimp only
    rw [hs]
    exact h
  | some x =>
    dsimp only
    rw [hs]
    dsimp only
    cases hf' : f x (db.slots p).files with
    | none => exact h
    | some r =>
      obtain ⟨x', fs'⟩ := r
      have hsl := h.slots p
      have hx := partOr_some hs
      have h1 := hsl.part
      have h2 := hsl.disk
      have h3 := hsl.durB
      rw [hx] at h1 h2 h3
      obtain ⟨g1, g2, g3, g4, g5⟩ := hf x _ x' fs' hf' hs rfl h1 h2 hsl.durOK h3
      exact set_inv0 (s := { part := some x', files := fs' }) h ⟨g1, g2, g3, g4⟩ g5

/-- A partition that is not held has no pending events. -/
theorem not_pend0 {iv n p : Nat} {db : Db} {H : List Rec} (h : Inv0 iv db H n) (hh : held iv db p = false)
    {y : Nat × Event} (hy : y ∈ evs H) (hp : partOf iv y.2.id = p) : ¬ pend db y.1 := by
  rintro ⟨es, he⟩
  obtain ⟨H0, m, hH⟩ := h.pending _ _ he
  have hin : y.2 ∈ es := by
    obtain ⟨r, hr, hl, n', es', rfl, he'⟩ := evs_lsn hy
    have ha := h.asc
    rw [hH] at hr ha
    rcases List.mem_append.1 hr with hr | hr
    · rw [List.pairwise_append] at ha
      have := ha.2.2 _ hr _ (List.mem_singleton.2 rfl)
      exact absurd this (Nat.lt_irrefl _)
    · simp only [List.mem_singleton, Rec.write.injEq] at hr
      rw [← hr.2.2]
      exact he'
  unfold held at hh
  rw [he] at hh
  simp only [List.any_eq_false, beq_iff_eq] at hh
  exact hh y.2 hin hp

theorem begin_inv0 {iv n : Nat} {db : Db} {H : List Rec} (h : Inv0 iv db H n) (p : Nat) : Inv0 iv (begin_ iv db p) H n := by
  unfold begin_
  split
  · exact h
  · rename_i hh
    have hh : held iv db p = false := by simpa using hh
    apply onPart_inv0 h
    intro x fs x' fs' hf hs _ hx hd hdur hdb
    split at hf
    case isFalse => cases hf
    case isTrue hi =>
    simp only [Option.some.injEq, Prod.mk.injEq] at hf
    obtain ⟨rfl, rfl⟩ := hf
    have he : x.prev = {} := hx.empty (by simp [hi]) (by simp [hi])
    have ht : top x = lsnOf x.file := by
      unfold top
      rw [he]
      exact Nat.max_eq_left (Nat.zero_le _)
    have hmem : ∀ y ∈ evs H, partOf iv y.2.id = p → lsnOf x.file < y.1 → x.act.lsnMin ≤ y.1 ∧ y.1 ≤ x.act.lsnMax :=
      fun y hy hp hl => hx.range y hy hp (by omega) (not_pend0 h hh hy hp)
    have hkey : ∀ (k : Key) (y : Nat × Event), partOf iv k.1 = p → y.2.pair = k → partOf iv y.2.id = p := by
      rintro k y hk rfl
      exact hk
    refine ⟨⟨hx.file, ?_, ?_, ?_, ?_, hx.fb, hx.ab, hx.pb, ?_, ?_, ?_, ?_, ?_⟩, ?_, hdur, hdb, Nat.le_refl _⟩
    · intro k hk
      show tget x.act.tbl k = vl _ _ _
      rw [hx.act k hk]
      apply vl_congr
      intro y hy hyk
      rw [ht]
      by_cases hl : lsnOf x.file < y.1
      · have := (hmem y hy (hkey k y hk hyk) hl).2
        have h2 : y.1 ≤ top { x with act := x.prev, prev := x.act, phase := .begun } :=
          Nat.le_trans this (Nat.le_max_right _ _)
        simp [hl, h2]
      · simp [hl]
    · intro k hk
      show tget x.prev.tbl k = vl _ _ _
      have e0 : tget x.prev.tbl k = none := by rw [he]; rfl
      rw [e0, vl_none]
      · intro y hy hyk
        by_cases hl : lsnOf x.file < y.1
        · have := (hmem y hy (hkey k y hk hyk) hl).2
          have h2 : y.1 ≤ top { x with act := x.prev, prev := x.act, phase := .begun } :=
            Nat.le_trans this (Nat.le_max_right _ _)
          simp only [decide_eq_false_iff_not]
          omega
        · have h2 : lsnOf x.file ≤ top { x with act := x.prev, prev := x.act, phase := .begun } := Nat.le_max_left _ _
          simp only [decide_eq_false_iff_not]
          omega
    · intro y hy hyp hl _
      exfalso
      have h2 : lsnOf x.file ≤ top { x with act := x.prev, prev := x.act, phase := .begun } := Nat.le_max_left _ _
      have h3 : x.act.lsnMax ≤ top { x with act := x.prev, prev := x.act, phase := .begun } := Nat.le_max_right _ _
      have := (hmem y hy hyp (by omega)).2
      omega
    · intro y hy hyp hl _
      exact (hmem y hy hyp hl).1
    · intro h1
      exact absurd rfl h1
    · intro f hf
      cases hf
    · rintro f (hf | hf | hf) <;> cases hf
    · intro y hy hyp hpd
      exact absurd hpd (not_pend0 h hh hy hyp)
    · left
      show x.prev.lsnMin = _
      rw [he]
    · unfold DiskOK at hd ⊢
      rw [hi] at hd
      exact hd

theorem merge_lsn (x : Part) : (mergeFile x).lsn = top x := by
  unfold mergeFile top
  cases x.file with
  | none => simp [lsnOf]
  | some f =>
    simp only [lsnOf]
    split <;> omega

theorem merge_get (x : Part) (k : Key) : tget (mergeFile x).tbl k = live ((tget x.prev.tbl k).or (fget x.file k)) := by
  unfold mergeFile
  cases x.file with
  | none => exact tget_merge _ _ _
  | some f => exact tget_merge _ _ _

theorem merge_ok {iv lsn p : Nat} {H : List Rec} {q : Nat → Prop} {x : Part} (hs : Asc (evs H))
    (h : PartOK iv H lsn q p x) : FileOK iv H p (some (mergeFile x)) := by
  intro k hk
  show tget (mergeFile x).tbl k = live (vl (fun l => decide (l ≤ (mergeFile x).lsn)) _ _)
  rw [merge_get, merge_lsn, h.prev k hk, h.file k hk, live_or_live,
    vl_split hs (fun l => decide (l ≤ top x)) (lsnOf x.file)]
  have e1 : vl (fun l => decide (l ≤ top x) && decide (lsnOf x.file < l)) (evs H) k =
      vl (fun l => decide (lsnOf x.file < l) && decide (l ≤ top x)) (evs H) k :=
    vl_congr fun y _ _ => Bool.and_comm _ _
  have e2 : vl (fun l => decide (l ≤ top x) && decide (l ≤ lsnOf x.file)) (evs H) k =
      vl (fun l => decide (l ≤ lsnOf x.file)) (evs H) k := by
    apply vl_congr
    intro y _ _
    have : lsnOf x.file ≤ top x := Nat.le_max_left _ _
    by_cases hy : y.1 ≤ lsnOf x.file
    · simp [hy, Nat.le_trans hy this]
    · simp [hy]
  rw [e1, e2]

theorem merge_inv0 {iv n : Nat} {db : Db} {H : List Rec} (h : Inv0 iv db H n) (p : Nat) : Inv0 iv (merge db p) H n := by
  unfold merge
  apply onPart_inv0 h
  intro x fs x' fs' hf hs _ hx hd hdur hdb
  split at hf
  case isFalse => cases hf
  case isTrue hi =>
  simp only [Option.some.injEq, Prod.mk.injEq] at hf
  obtain ⟨rfl, rfl⟩ := hf
  refine ⟨⟨hx.file, hx.prev, hx.act, hx.range, hx.prevMin, hx.fb, hx.pb, hx.ab, ?_, ?_, ?_, hx.held, hx.mini⟩, ?_, hdur, hdb, Nat.le_refl _⟩
  · intro _ h2
    exact absurd rfl (h2 _)
  · intro f hf
    simp only [Phase.merged.injEq] at hf
    rw [← hf]
    rfl
  · rintro f (hf | hf | hf) <;> cases hf
  · unfold DiskOK at hd ⊢
    rw [hi] at hd
    exact hd

theorem apply_inv0 {iv n : Nat} {db : Db} {H : List Rec} (h : Inv0 iv db H n) (p : Nat) : Inv0 iv (apply_ iv db p) H n := by
  unfold apply_
  split
  · exact h
  · apply onPart_inv0 h
    intro x fs x' fs' hf hs _ hx hd hdur hdb
    split at hf
    case h_2 => cases hf
    case h_1 f hi =>
    simp only [Option.some.injEq, Prod.mk.injEq] at hf
    obtain ⟨rfl, rfl⟩ := hf
    have hfm := hx.merged f hi
    subst hfm
    have ht : top { file := some (mergeFile x), act := x.act, prev := {}, phase := .applied (mergeFile x) } = top x := by
      have e : top { file := some (mergeFile x), act := x.act, prev := {}, phase := .applied (mergeFile x) } =
        max (mergeFile x).lsn 0 := rfl
      rw [e, merge_lsn]
      exact Nat.max_eq_left (Nat.zero_le _)
    have hl : lsnOf (some (mergeFile x)) = top x := merge_lsn x
    have htl : top x ≤ db.lsn := Nat.max_le.2 ⟨hx.fb, hx.pb⟩
    refine ⟨⟨merge_ok (asc_evs H h.asc) hx, ?_, ?_, ?_, ?_, ?_, Nat.zero_le _, hx.ab, ?_, ?_, ?_, ?_, hx.mini⟩, ?_, hdur, ?_, Nat.le_refl _⟩
    · intro k hk
      show none = _
      rw [vl_none]
      intro y _ _
      rw [ht, hl]
      by_cases hy : top x < y.1
      · have : ¬ y.1 ≤ top x := by omega
        simp [this]
      · simp [hy]
    · intro k hk
      rw [ht]
      exact hx.act k hk
    · intro y hy hyp
      rw [ht]
      exact hx.range y hy hyp
    · intro y hy hyp h1 h2
      simp only at h1
      rw [hl] at h1
      rw [ht] at h2
      omega
    · simp only
      rw [hl]
      exact htl
    · intro _ _
      rfl
    · intro f hf
      cases hf
    · rintro f (hf | hf | hf)
      · simp only [Phase.applied.injEq] at hf
        rw [hf]
      · cases hf
      · cases hf
    · intro y hy hyp hpd
      rw [ht]
      exact hx.held y hy hyp hpd
    · unfold DiskOK at hd ⊢
      rw [hi] at hd
      exact hd.1
    · rw [hl]
      have : lsnOf x.file ≤ top x := Nat.le_max_left _ _
      omega

theorem complete_inv0 {iv n : Nat} {db : Db} {H : List Rec} (h : Inv0 iv db H n) (p : Nat) :
    Inv0 iv (complete db p) H n := by
  unfold complete
  apply onPart_inv0 h
  intro x fs x' fs' hf hs _ hx hd hdur hdb
  split at hf
  case h_2 => cases hf
  case h_1 f hi =>
  simp only [Option.some.injEq, Prod.mk.injEq] at hf
  obtain ⟨rfl, rfl⟩ := hf
  have hxf := hx.after f (.inl hi)
  have he := hx.empty (by simp [hi]) (by simp [hi])
  have hdd : dur { fs with incomplete := false, complete := some f } = dur fs ∨
      (dur fs = none ∧ dur { fs with incomplete := false, complete := some f } = some f) := by
    unfold DiskOK at hd
    rw [hi] at hd
    unfold dur
    cases fs.id_ with
    | some g => exact .inl rfl
    | none => exact .inr ⟨hd, rfl⟩
  refine ⟨⟨hx.file, hx.prev, hx.act, hx.range, hx.prevMin, hx.fb, hx.pb, hx.ab, fun _ _ => he, ?_, ?_, hx.held, hx.mini⟩, ?_, ?_, ?_, ?_⟩
  · intro f hf
    cases hf
  · rintro g (hf | hf | hf)
    · cases hf
    · simp only [Phase.completed.injEq] at hf
      rw [← hf]
      exact hxf
    · cases hf
  · exact ⟨rfl, rfl⟩
  · rcases hdd with e | ⟨_, e⟩ <;> rw [e]
    · exact hdur
    · exact hxf ▸ hx.file
  · rcases hdd with e | ⟨_, e⟩ <;> rw [e]
    · exact hdb
    · rw [hxf]
      exact Nat.le_refl _
  · rcases hdd with e | ⟨e0, e⟩ <;> rw [e]
    · exact Nat.le_refl _
    · rw [e0]
      exact Nat.zero_le _

theorem delete_inv0 {iv n : Nat} {db : Db} {H : List Rec} (h : Inv0 iv db H n) (p : Nat) : Inv0 iv (delete db p) H n := by
  unfold delete
  apply onPart_inv0 h
  intro x fs x' fs' hf hs _ hx hd hdur hdb
  split at hf
  case h_2 => cases hf
  case h_1 f hi =>
  simp only [Option.some.injEq, Prod.mk.injEq] at hf
  obtain ⟨rfl, rfl⟩ := hf
  have hxf := hx.after f (.inr (.inl hi))
  have he := hx.empty (by simp [hi]) (by simp [hi])
  unfold DiskOK at hd
  rw [hi] at hd
  have hdd : dur { fs with id_ := none } = x.file := by
    unfold dur
    simp only
    rw [hd.1, hxf]
  refine ⟨⟨hx.file, hx.prev, hx.act, hx.range, hx.prevMin, hx.fb, hx.pb, hx.ab, fun _ _ => he, ?_, ?_, hx.held, hx.mini⟩, ?_, ?_, ?_, ?_⟩
  · intro f hf
    cases hf
  · rintro g (hf | hf | hf)
    · cases hf
    · cases hf
    · simp only [Phase.deleted.injEq] at hf
      rw [← hf]
      exact hxf
  · exact ⟨rfl, hd⟩
  · rw [hdd]
    exact hx.file
  · rw [hdd]
    exact Nat.le_refl _
  · rw [hdd]
    exact hdb

theorem finish_inv0 {iv n : Nat} {db : Db} {H : List Rec} (h : Inv0 iv db H n) (p : Nat) : Inv0 iv (finish db p) H n := by
  unfold finish
  apply onPart_inv0 h
  intro x fs x' fs' hf hs _ hx hd hdur hdb
  split at hf
  case h_2 => cases hf
  case h_1 f hi =>
  simp only [Option.some.injEq, Prod.mk.injEq] at hf
  obtain ⟨rfl, rfl⟩ := hf
  have hxf := hx.after f (.inr (.inr hi))
  have he := hx.empty (by simp [hi]) (by simp [hi])
  have hdd : dur { fs with id_ := some f, complete := none } = x.file := by
    unfold dur
    exact hxf.symm
  refine ⟨⟨hx.file, hx.prev, hx.act, hx.range, hx.prevMin, hx.fb, hx.pb, hx.ab, fun _ _ => he, ?_, ?_, hx.held, hx.mini⟩, ?_, ?_, ?_, ?_⟩
  · intro f hf
    cases hf
  · rintro g (hf | hf | hf) <;> cases hf
  · exact ⟨rfl, hxf.symm⟩
  · rw [hdd]
    exact hx.file
  · rw [hdd]
    exact Nat.le_refl _
  · rw [hdd]
    exact hdb

/-! The log. -/

theorem takeWhile_all {α : Type} {p : α → Bool} : ∀ {l : List α}, (∀ x ∈ l, p x = true) → l.takeWhile p = l
  | [], _ => rfl
  | x :: l, h => by
    rw [List.takeWhile_cons_of_pos (h x (by simp)), takeWhile_all fun y hy => h y (by simp [hy])]

theorem dropWhile_all {α : Type} {p : α → Bool} : ∀ {l : List α}, (∀ x ∈ l, p x = true) → l.dropWhile p = []
  | [], _ => rfl
  | x :: l, h => by
    rw [List.dropWhile_cons_of_pos (h x (by simp)), dropWhile_all fun y hy => h y (by simp [hy])]

theorem rotated_inv0 {iv n : Nat} {db : Db} {H : List Rec} (h : Inv0 iv db H n) (hall : ∀ f ∈ db.wal, f.1 < db.lsn + 1) :
    Inv0 iv { db with wal := db.wal ++ [(db.lsn + 1, [])], cur := db.lsn + 1 } H n := by
  constructor
  · exact h.writes
  · exact h.asc
  · exact h.last
  · exact h.nle
  · simp only
    rw [List.flatMap_append, h.wal]
    simp
  · simp only
    rw [List.pairwise_append]
    refine ⟨h.files, List.pairwise_singleton _ _, ?_⟩
    intro f hf g hg
    simp only [List.mem_singleton] at hg
    subst hg
    refine ⟨hall f hf, ?_⟩
    intro r hr
    have h2 : r ∈ H.drop n := by
      rw [← h.wal]
      exact List.mem_flatMap.2 ⟨f, hf, hr⟩
    have := le_last h.asc (List.mem_of_mem_drop h2)
    have := h.last
    simp only
    omega
  · simp only
    intro f hf
    rcases List.mem_append.1 hf with hf | hf
    · exact h.ids f hf
    · simp only [List.mem_singleton] at hf
      subst hf
      simp
  · simp only
    exact ⟨_, _, rfl⟩
  · exact Nat.le_refl _
  · exact h.slots
  · exact h.cover
  · exact h.known
  · exact h.pending

theorem rotate_inv0 {iv n : Nat} {db : Db} {H : List Rec} (h : Inv0 iv db H n) :
    ∃ db', rotate db = .ok db' ∧ Inv0 iv db' H n ∧ db'.lsn = db.lsn := by
  unfold rotate
  obtain ⟨w, rs, hw⟩ := h.cur
  by_cases he : db.wal.any (fun f => f.1 == db.cur && f.2.isEmpty) = true
  · rw [if_pos he]
    exact ⟨_, rfl, h, rfl⟩
  · rw [if_neg he]
    have hne : rs ≠ [] := by
      rintro rfl
      apply he
      rw [List.any_eq_true]
      exact ⟨(db.cur, []), by rw [hw]; simp, by simp⟩
    have hlt : db.cur < db.lsn + 1 := by
      obtain ⟨r, hr⟩ := List.exists_mem_of_ne_nil rs hne
      have h1 := h.ids (db.cur, rs) (by rw [hw]; simp) r hr
      have h2 : r ∈ H.drop n := by
        rw [← h.wal]
        exact List.mem_flatMap.2 ⟨(db.cur, rs), by rw [hw]; simp, hr⟩
      have := le_last h.asc (List.mem_of_mem_drop h2)
      have := h.last
      omega
    have hall : ∀ f ∈ db.wal, f.1 < db.lsn + 1 := by
      intro f hf
      have hp := h.files
      rw [hw] at hf hp
      rw [List.pairwise_append] at hp
      rcases List.mem_append.1 hf with hf | hf
      · have := (hp.2.2 f hf (db.cur, rs) (by simp)).1
        simp only at this
        omega
      · simp only [List.mem_singleton] at hf
        rw [hf]
        exact hlt
    have hno : ¬ db.wal.any (fun f => f.1 == db.lsn + 1) = true := by
      rw [List.any_eq_true]
      rintro ⟨f, hf, h1⟩
      have := hall f hf
      simp only [beq_iff_eq] at h1
      omega
    rw [if_neg hno]
    refine ⟨_, rfl, ?_, rfl⟩
    have ht : db.wal.takeWhile (fun f => decide (f.1 < db.lsn + 1)) = db.wal := by
      apply takeWhile_all
      intro f hf
      simpa using hall f hf
    have hd : db.wal.dropWhile (fun f => decide (f.1 < db.lsn + 1)) = [] := by
      apply dropWhile_all
      intro f hf
      simpa using hall f hf
    rw [ht, hd, List.append_nil]
    exact rotated_inv0 h hall

theorem gcCount_lt (m : Nat) : ∀ (l : List Nat), l ≠ [] → Wal.gcCount m l < l.length := by
  intro l
  fun_induction Wal.gcCount m l with
  | case1 x y l h ih =>
    intro _
    have := ih (by simp)
    simp only [List.length_cons] at this ⊢
    omega
  | case2 x y l h =>
    intro _
    simp
  | case3 l h =>
    intro hl
    exact List.length_pos_iff.2 hl

/-- Every file removed is followed by one with an id up to the bound. -/
theorem gcCount_spec (m : Nat) : ∀ (l : List (Nat × List Rec)),
    l.Pairwise (fun f g => f.1 < g.1 ∧ ∀ r ∈ f.2, r.lsn < g.1) →
    ∀ f ∈ l.take (Wal.gcCount m (l.map (·.1))), ∀ r ∈ f.2, r.lsn < m := by
  intro l
  induction l with
  | nil => intro _ f hf; simp [Wal.gcCount] at hf
  | cons a l ih =>
    intro hp f hf r hr
    cases l with
    | nil => simp [Wal.gcCount] at hf
    | cons b l =>
      simp only [List.map_cons, Wal.gcCount] at hf
      split at hf
      · rename_i hb
        rw [List.take_succ_cons] at hf
        rw [List.pairwise_cons] at hp
        rcases List.mem_cons.1 hf with rfl | hf
        · have := (hp.1 b (by simp)).2 r hr
          omega
        · exact ih hp.2 f (by simpa using hf) r hr
      · simp at hf

theorem lsnMin_fold (db : Db) : ∀ (l : List Nat) (m0 : Nat),
    (l.foldl (fun m p =>
      match (db.slots p).part with
      | none => m
      | some x =>
        let m := if x.act.lsnMin < m then x.act.lsnMin else m
        if x.prev.lsnMin < m then x.prev.lsnMin else m) m0) ≤ m0 ∧
    ∀ p ∈ l, ∀ x, (db.slots p).part = some x →
      (l.foldl (fun m p =>
      match (db.slots p).part with
      | none => m
      | some x =>
        let m := if x.act.lsnMin < m then x.act.lsnMin else m
        if x.prev.lsnMin < m then x.prev.lsnMin else m) m0) ≤ min x.act.lsnMin x.prev.lsnMin := by
  intro l
  induction l with
  | nil => intro m0; simp
  | cons a l ih =>
    intro m0
    rw [List.foldl_cons]
    obtain ⟨h1, h2⟩ := ih (match (db.slots a).part with
      | none => m0
      | some x =>
        let m := if x.act.lsnMin < m0 then x.act.lsnMin else m0
        if x.prev.lsnMin < m then x.prev.lsnMin else m)
    constructor
    · refine Nat.le_trans h1 ?_
      cases (db.slots a).part with
      | none => exact Nat.le_refl _
      | some x =>
        simp only
        split <;> split <;> omega
    · intro p hp x hx
      rcases List.mem_cons.1 hp with rfl | hp
      · refine Nat.le_trans h1 ?_
        rw [hx]
        simp only
        split <;> split <;> omega
      · exact h2 p hp x hx

theorem lsnMin_le {db : Db} (hk : ∀ p, p ∉ db.known → db.slots p = {}) {p : Nat} {x : Part}
    (hx : (db.slots p).part = some x) : lsnMin db ≤ x.act.lsnMin ∧ lsnMin db ≤ x.prev.lsnMin := by
  have hp : p ∈ db.known := by
    apply Classical.byContradiction
    intro hn
    rw [hk p hn] at hx
    cases hx
  have := (lsnMin_fold db db.known 18446744073709551615).2 p hp x hx
  exact Nat.le_min.1 this

theorem gcAt_inv0 {iv n : Nat} {db : Db} {H : List Rec} (h : Inv0 iv db H n) (hp : db.pending = none)
    (ho : ∀ p x, (db.slots p).part = some x → x.phase.open_ = false) {m : Nat}
    (hm : ∀ p x, (db.slots p).part = some x → m ≤ x.act.lsnMin ∧ m ≤ x.prev.lsnMin) :
    ∃ n', Inv0 iv { db with wal := db.wal.drop (Wal.gcCount m (db.wal.map (·.1))) } H n' := by
  have hw0 := h.wal
  have hsplit := List.take_append_drop (Wal.gcCount m (db.wal.map (·.1))) db.wal
  rw [← hsplit, List.flatMap_append] at hw0
  have hgone : ∀ r ∈ (db.wal.take (Wal.gcCount m (db.wal.map (·.1)))).flatMap (·.2), r.lsn < m := by
    intro r hr
    obtain ⟨f, hf, hr⟩ := List.mem_flatMap.1 hr
    exact gcCount_spec _ _ h.files f hf r hr
  generalize hg : (db.wal.take (Wal.gcCount m (db.wal.map (·.1)))).flatMap (·.2) = gone at hw0 hgone
  have hdrop : (db.wal.drop (Wal.gcCount m (db.wal.map (·.1)))).flatMap (·.2) = H.drop (n + gone.length) := by
    rw [← List.drop_drop, ← hw0, List.drop_left]
  have htake : H.take (n + gone.length) = H.take n ++ gone := by
    rw [List.take_add, ← hw0, List.take_left]
  refine ⟨n + gone.length, ?_⟩
  constructor
  · exact h.writes
  · exact h.asc
  · exact h.last
  · have h1 := congrArg List.length hw0
    rw [List.length_append, List.length_drop] at h1
    have := h.nle
    omega
  · exact hdrop
  · exact h.files.sublist (List.drop_sublist _ _)
  · intro f hf
    exact h.ids f (List.mem_of_mem_drop hf)
  · obtain ⟨w, rs, hw⟩ := h.cur
    have hl := gcCount_lt m (db.wal.map (·.1)) (by rw [hw]; simp)
    refine ⟨w.drop (Wal.gcCount m (db.wal.map (·.1))), rs, ?_⟩
    simp only
    rw [hw, List.drop_append_of_le_length]
    rw [hw] at hl
    simp only [List.map_append, List.map_cons, List.map_nil, List.length_append, List.length_map, List.length_cons,
      List.length_nil] at hl ⊢
    omega
  · exact h.curLe
  · exact h.slots
  · intro y hy
    rw [htake, evs_append] at hy
    rcases List.mem_append.1 hy with hy | hy
    · exact h.cover y hy
    · have hyH : y ∈ evs H := by
        have : H = H.take (n + gone.length) ++ H.drop (n + gone.length) := (List.take_append_drop _ _).symm
        rw [this, htake, evs_append, evs_append]
        exact List.mem_append.2 (.inl (List.mem_append.2 (.inr hy)))
      obtain ⟨r, hr, hrl, _⟩ := evs_lsn hy
      have hlt := hgone r hr
      rw [hrl] at hlt
      have hs := h.slots (partOf iv y.2.id)
      obtain ⟨x, hx⟩ := has h.writes hs hyH rfl
      have h1 := hs.part
      have h2 := hs.disk
      rw [partOr_some hx] at h1 h2
      obtain ⟨m1, m2⟩ := hm _ x hx
      show y.1 ≤ lsnOf (dur (db.slots (partOf iv y.2.id)).files)
      rw [dur_eq h1 h2 (ho _ x hx)]
      apply Classical.byContradiction
      intro hn
      have hn : lsnOf x.file < y.1 := Nat.lt_of_not_le hn
      by_cases ht : y.1 ≤ top x
      · have := h1.prevMin y hyH rfl hn ht
        omega
      · have := (h1.range y hyH rfl (Nat.lt_of_not_le ht) (by rintro ⟨es, he⟩; rw [hp] at he; cases he)).1
        omega
  · exact h.known
  · exact h.pending

theorem gc_inv0 {iv n : Nat} {db : Db} {H : List Rec} (h : Inv0 iv db H n) (hp : db.pending = none)
    (ho : ∀ p x, (db.slots p).part = some x → x.phase.open_ = false) : ∃ n', Inv0 iv (gc db) H n' :=
  gcAt_inv0 h hp ho fun _ _ hx => lsnMin_le h.known hx

end Verif.Dur
