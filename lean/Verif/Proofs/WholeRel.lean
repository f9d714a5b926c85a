import Verif.Proofs.WholeMem
import Verif.Spec.C84

/-! Helper lemmas: the whole database and the model of tables as maps
(Model/Durable.lean). -/
namespace Verif.Whole
open Rb Spec Io Mapping Cursor
open Dur (partOf tget tset Key partOr)
open C84 (Limits)

/-- A partition file and its contents. -/
structure FileRel (env : Env) (E : List Event) (n p : Nat) (f : PartFile) (a : Dur.PFile) : Prop where
  ex : ∃ ms, FileOf env.cs ms f ∧ (∀ m ∈ ms, m.event ∈ E ∧ WF m.event ∧ partOf env.iv m.event.id = p) ∧
    Ascending (ms.map (·.event)) ∧ f.index.events = ms.length ∧ ∀ k : Key, tget a.tbl k = tget (ms.map (·.event)) k
  opens : part_open env.cs f.file = .ok f
  lsn : f.index.lsn = a.lsn
  idMin : f.index.id_min = p
  idMax : f.index.id_max = p + env.iv - 1
  refreshes : f.index.refreshes ≤ n

theorem FileRel.mono {env : Env} {E : List Event} {n n' p : Nat} {f : PartFile} {a : Dur.PFile}
    (h : FileRel env E n p f a) (hn : n ≤ n') : FileRel env E n' p f a :=
  ⟨h.ex, h.opens, h.lsn, h.idMin, h.idMax, Nat.le_trans h.refreshes hn⟩

/-- The bytes of a file. -/
def BytesRel (env : Env) (E : List Event) (n p : Nat) (b : Option Bytes) (a : Option Dur.PFile) : Prop :=
  match b, a with
  | none, none => True
  | some b, some a => ∃ f : PartFile, f.file = b ∧ FileRel env E n p f a
  | _, _ => False

theorem BytesRel.mono {env : Env} {E : List Event} {n n' p : Nat} {b : Option Bytes} {a : Option Dur.PFile}
    (h : BytesRel env E n p b a) (hn : n ≤ n') : BytesRel env E n' p b a := by
  cases b <;> cases a <;> try exact h
  obtain ⟨f, h1, h2⟩ := h
  exact ⟨f, h1, h2.mono hn⟩

/-- The open file of a partition. -/
def OpenRel (env : Env) (E : List Event) (n p : Nat) (f : Option PartFile) (a : Option Dur.PFile) : Prop :=
  match f, a with
  | none, none => True
  | some f, some a => FileRel env E n p f a
  | _, _ => False

theorem OpenRel.mono {env : Env} {E : List Event} {n n' p : Nat} {b : Option PartFile} {a : Option Dur.PFile}
    (h : OpenRel env E n p b a) (hn : n ≤ n') : OpenRel env E n' p b a := by
  cases b <;> cases a <;> try exact h
  exact FileRel.mono h hn

structure FilesRel (env : Env) (E : List Event) (n p : Nat) (fs : Files) (a : Dur.Files) : Prop where
  id_ : BytesRel env E n p fs.id_ a.id_
  complete : BytesRel env E n p fs.complete a.complete
  incomplete : fs.incomplete.isSome = a.incomplete

theorem FilesRel.mono {env : Env} {E : List Event} {n n' p : Nat} {b : Files} {a : Dur.Files}
    (h : FilesRel env E n p b a) (hn : n ≤ n') : FilesRel env E n' p b a :=
  ⟨h.id_.mono hn, h.complete.mono hn, h.incomplete⟩

def PhaseRel (env : Env) (E : List Event) (n p : Nat) (ph : Phase) (a : Dur.Phase) (fs : Files) : Prop :=
  match ph, a with
  | .idle, .idle => fs.incomplete = none
  | .begun, .begun => fs.incomplete = none
  | .failed, .begun => fs.incomplete = none
  | .failed, .merged _ => fs.incomplete.isSome = true
  | .merged f, .merged g => fs.incomplete = some f.file ∧ FileRel env E n p f g
  | .applied, .applied g => ∃ f : PartFile, fs.incomplete = some f.file ∧ FileRel env E n p f g
  | .completed, .completed g => fs.incomplete = none ∧ ∃ f : PartFile, fs.complete = some f.file ∧ FileRel env E n p f g
  | .deleted, .deleted g => fs.incomplete = none ∧ ∃ f : PartFile, fs.complete = some f.file ∧ FileRel env E n p f g
  | _, _ => False

theorem PhaseRel.mono {env : Env} {E : List Event} {n n' p : Nat} {b : Phase} {a : Dur.Phase} {fs : Files}
    (h : PhaseRel env E n p b a fs) (hn : n ≤ n') : PhaseRel env E n' p b a fs := by
  cases b <;> cases a <;> try exact h
  · exact ⟨h.1, h.2.mono hn⟩
  · obtain ⟨f, h1, h2⟩ := h
    exact ⟨f, h1, h2.mono hn⟩
  · obtain ⟨h0, f, h1, h2⟩ := h
    exact ⟨h0, f, h1, h2.mono hn⟩
  · obtain ⟨h0, f, h1, h2⟩ := h
    exact ⟨h0, f, h1, h2.mono hn⟩

structure PartRel (env : Env) (E A : List Event) (n p : Nat) (c : CPart) (ph : Phase) (fs : Files) (x : Dur.Part)
    (a : Dur.Files) : Prop where
  act : MemRel env.iv p A c.act x.act
  prev : MemRel env.iv p A c.prev x.prev
  file : OpenRel env E n p c.file x.file
  phase : PhaseRel env E n p ph x.phase fs
  files : FilesRel env E n p fs a

theorem PartRel.mono {env : Env} {E A A' : List Event} {n n' p : Nat} {c : CPart} {ph : Phase} {fs : Files} {x : Dur.Part}
    {a : Dur.Files} (h : PartRel env E A n p c ph fs x a) (hA : A.Sublist A') (hn : n ≤ n') :
    PartRel env E A' n' p c ph fs x a :=
  ⟨h.act.mono hA, h.prev.mono hA, h.file.mono hn, h.phase.mono hn, h.files.mono hn⟩

/-- The partitions. -/
structure MapOK (env : Env) (E A : List Event) (n : Nat) (m : Mapping CPart) (phase : Nat → Phase) (disk : Nat → Files)
    (slots : Nat → Dur.Slot) (L : List (Slice CPart)) : Prop where
  inv : Mapping.Inv m L
  grid : Grid env.iv L
  has : ∀ s ∈ L, ∃ x, (slots s.min).part = some x ∧
    PartRel env E A n s.min s.val (phase s.min) (disk s.min) x (slots s.min).files
  free : ∀ p, (∀ s ∈ L, s.min ≠ p) → slots p = {} ∧ phase p = .idle ∧ disk p = {}

def MapRel (env : Env) (E A : List Event) (n : Nat) (m : Mapping CPart) (phase : Nat → Phase) (disk : Nat → Files)
    (slots : Nat → Dur.Slot) : Prop := ∃ L, MapOK env E A n m phase disk slots L

theorem MapRel.mono {env : Env} {E A A' : List Event} {n n' : Nat} {m : Mapping CPart} {phase : Nat → Phase}
    {disk : Nat → Files} {slots : Nat → Dur.Slot} (h : MapRel env E A n m phase disk slots) (hA : A.Sublist A') (hn : n ≤ n') :
    MapRel env E A' n' m phase disk slots := by
  obtain ⟨L, h1, h2, h3, h4⟩ := h
  refine ⟨L, h1, h2, fun s hs => ?_, h4⟩
  obtain ⟨x, e1, e2⟩ := h3 s hs
  exact ⟨x, e1, e2.mono hA hn⟩

/-- A change of one partition. -/
theorem MapRel.update {env : Env} {E A A' : List Event} {n n' : Nat} {m : Mapping CPart} {phase phase' : Nat → Phase}
    {disk disk' : Nat → Files} {slots slots' : Nat → Dur.Slot} (h : MapRel env E A n m phase disk slots)
    (hA : A.Sublist A') (hn : n ≤ n') {x : Loc (Slice CPart)} (hx : x.tree = m.tree) {c : CPart} {y : Dur.Part}
    (hy : (slots' x.v.min).part = some y)
    (hp : PartRel env E A' n' x.v.min c (phase' x.v.min) (disk' x.v.min) y (slots' x.v.min).files)
    (h1 : ∀ q, q ≠ x.v.min → slots' q = slots q ∧ phase' q = phase q ∧ disk' q = disk q) :
    MapRel env E A' n' (setAt m x c) phase' disk' slots' := by
  obtain ⟨L, hL⟩ := h.mono hA hn
  obtain ⟨hv, L', hi, hr⟩ := setAt_repl hL.inv hx c
  refine ⟨L', hi, ?_, ?_, ?_⟩
  · intro s hs
    rcases hr.old s hs with rfl | ⟨hs, _⟩
    · exact hL.grid x.v hv
    · exact hL.grid s hs
  · intro s hs
    rcases hr.old s hs with rfl | ⟨hs, hne⟩
    · exact ⟨y, hy, hp⟩
    · obtain ⟨e1, e2, e3⟩ := h1 s.min hne
      rw [e1, e2, e3]
      exact hL.has s hs
  · intro q hq
    have hne : q ≠ x.v.min := fun e => hq _ hr.new e.symm
    obtain ⟨e1, e2, e3⟩ := h1 q hne
    rw [e1, e2, e3]
    apply hL.free
    intro s hs e
    by_cases hm : s.min = x.v.min
    · exact hne (e.symm.trans hm)
    · exact hq s (hr.keep s hs hm) e

/-- A partition is found. -/
theorem MapRel.find {env : Env} {E A : List Event} {n : Nat} {m : Mapping CPart} {phase : Nat → Phase}
    {disk : Nat → Files} {slots : Nat → Dur.Slot} (h : MapRel env E A n m phase disk slots) (hl : Limits env E)
    {id : Nat} (hid : id < 2147483648) :
    (find m id = .ok none ∧ slots (partOf env.iv id) = {}) ∨
    ∃ x y, find m id = .ok (some x) ∧ x.tree = m.tree ∧ x.v.min = partOf env.iv id ∧
      (x.v.max = x.v.min + env.iv - 1 ∧ partOf env.iv x.v.min = x.v.min ∧ x.v.min + env.iv ≤ 2147483648) ∧
      (slots x.v.min).part = some y ∧
      PartRel env E A n x.v.min x.v.val (phase x.v.min) (disk x.v.min) y (slots x.v.min).files := by
  obtain ⟨L, hL⟩ := h
  rcases find_spec hl.interval.1 hl.interval.2 hL.inv hL.grid hid with ⟨h1, h2⟩ | ⟨x, h1, h2, h3, h4⟩
  · exact .inl ⟨h1, (hL.free _ h2).1⟩
  · obtain ⟨y, e1, e2⟩ := hL.has _ h3
    exact .inr ⟨x, y, h1, h2, h4, hL.grid _ h3, e1, e2⟩

theorem partRel_new (env : Env) (E A : List Event) (n p : Nat) : PartRel env E A n p newPart .idle {} {} {} :=
  ⟨memRel_init _ _ _, memRel_init _ _ _, trivial, rfl, ⟨trivial, trivial, rfl⟩⟩

/-- A partition is found or made. -/
theorem MapRel.lock {env : Env} {E A : List Event} {n : Nat} {m : Mapping CPart} {phase : Nat → Phase}
    {disk : Nat → Files} {slots : Nat → Dur.Slot} (h : MapRel env E A n m phase disk slots) (hl : Limits env E)
    {id : Nat} (hid : partOf env.iv id + env.iv ≤ 2147483648) :
    ∃ m' x, lock env.iv m id = .ok (m', x) ∧ x.tree = m'.tree ∧ x.v.min = partOf env.iv id ∧
      MapRel env E A n m' phase disk
        (fun q => if q = partOf env.iv id then { slots q with part := some (partOr (slots q)) } else slots q) ∧
      PartRel env E A n (partOf env.iv id) x.v.val (phase (partOf env.iv id)) (disk (partOf env.iv id))
        (partOr (slots (partOf env.iv id))) (slots (partOf env.iv id)).files := by
  obtain ⟨L, hL⟩ := h
  obtain ⟨m', x, L', h1, h2, h3, h4, h5, h6, h7⟩ := lock_spec hl.interval.1 hl.interval.2 hL.inv hL.grid hid
  refine ⟨m', x, h1, h2, h6, ?_⟩
  rcases h7 with ⟨rfl, rfl⟩ | ⟨h7, h8, h9⟩
  · obtain ⟨y, e1, e2⟩ := hL.has _ h5
    rw [h6] at e1 e2
    have e3 : partOr (slots (partOf env.iv id)) = y := Dur.partOr_some e1
    refine ⟨⟨L', h3, h4, ?_, ?_⟩, by rw [e3]; exact e2⟩
    · intro s hs
      by_cases hm : s.min = partOf env.iv id
      · rw [if_pos hm]
        obtain ⟨y, e1, e2⟩ := hL.has s hs
        refine ⟨y, ?_, e2⟩
        dsimp only
        rw [Dur.partOr_some e1]
      · rw [if_neg hm]
        exact hL.has s hs
    · intro q hq
      rw [if_neg (fun e => hq _ h5 (h6.trans e.symm))]
      exact hL.free q hq
  · obtain ⟨f1, f2, f3⟩ := hL.free _ h7
    have hr : PartRel env E A n (partOf env.iv id) x.v.val (phase (partOf env.iv id)) (disk (partOf env.iv id))
        (partOr (slots (partOf env.iv id))) (slots (partOf env.iv id)).files := by
      rw [f1, f2, f3, h8]
      exact partRel_new ..
    refine ⟨⟨L', h3, h4, ?_, ?_⟩, hr⟩
    · intro s hs
      by_cases hm : s.min = partOf env.iv id
      · rw [if_pos hm]
        have : s = x.v := min_unique h3.sorted hs h5 (hm.trans h6.symm)
        subst this
        rw [hm]
        exact ⟨_, rfl, hr⟩
      · rw [if_neg hm]
        rcases h9.old s hs with rfl | ⟨hs, _⟩
        · exact absurd h6 hm
        · exact hL.has s hs
    · intro q hq
      rw [if_neg (fun e => hq _ h5 (h6.trans e.symm))]
      apply hL.free
      intro s hs e
      by_cases hm : s.min = x.v.min
      · exact h7 s hs (hm.trans h6)
      · exact hq s (h9.keep s hs hm) e

theorem limits_tame {env : Env} {E : List Event} (hl : Limits env E) (p : Nat) :
    C07.Tame 512 508 (E.filter fun e => partOf env.iv e.id == p) := by
  refine tame_sub (hl.tame (p / env.iv)) ?_
  have : (E.filter fun e => partOf env.iv e.id == p) =
      (E.filter fun e => e.id / env.iv == p / env.iv).filter fun e => partOf env.iv e.id == p := by
    rw [List.filter_filter]
    apply List.filter_congr
    intro e _
    by_cases h : partOf env.iv e.id = p
    · have : e.id / env.iv = p / env.iv := by
        rw [← h, partOf_mul, Nat.mul_div_cancel_left _ hl.interval.1]
      simp [h, this]
    · simp [h]
  rw [this]
  exact List.filter_sublist

theorem limits_ids {env : Env} {E : List Event} (hl : Limits env E) {e : Event} (he : e ∈ E) :
    partOf env.iv e.id + env.iv ≤ 2147483648 ∧ e.id < 2147483648 := by
  have h1 := hl.ids e he
  have h2 := partOf_in hl.interval.1 e.id
  rw [partOf_mul] at h2 ⊢
  rw [Nat.mul_comm] at h2 ⊢
  have := hl.interval.1
  omega

/-- One event of a batch. -/
theorem prev_rel {env : Env} {E A : List Event} {n : Nat} {w : Db} {slots : Nat → Dur.Slot}
    (h : MapRel env E A n w.map w.phase w.disk slots) (hl : Limits env E) {e : Event} (hw : WF e)
    (hs : (A ++ [e]).Sublist E) :
    ∃ m', putPrev env w e = .ok ({ w with map := m' }, tget (partOr (slots (partOf env.iv e.id))).act.tbl e.pair) ∧
      MapRel env E (A ++ [e]) n m' w.phase w.disk (fun q => Dur.putOne env.iv q (slots q) e) := by
  have he : e ∈ E := hs.subset (by simp)
  obtain ⟨m', x, h1, h2, h3, h4, h5⟩ := h.lock hl (limits_ids hl he).1
  obtain ⟨t, h6, h7⟩ := h5.act.set env.mc rfl hl.interval.1 hl.interval.2 hw.2.2.1
    (tame_sub (limits_tame hl _) (hs.filter _))
  refine ⟨setAt m' x { x.v.val with act := t }, ?_, ?_⟩
  · unfold putPrev
    rw [h1]
    simp only [Res.bind_ok]
    rw [h6]
    rfl
  · refine h4.update (List.sublist_append_left _ _) (Nat.le_refl _) h2 (y :=
      { partOr (slots (partOf env.iv e.id)) with
        act := { (partOr (slots (partOf env.iv e.id))).act with tbl := tset (partOr (slots (partOf env.iv e.id))).act.tbl e } })
      ?_ ?_ ?_
    · rw [h3]
      unfold Dur.putOne
      rw [if_pos rfl]
    · rw [h3]
      have hf : (Dur.putOne env.iv (partOf env.iv e.id) (slots (partOf env.iv e.id)) e).files =
          (slots (partOf env.iv e.id)).files := by
        unfold Dur.putOne
        rw [if_pos rfl]
      rw [hf]
      exact ⟨h7, h5.prev.mono (List.sublist_append_left _ _), h5.file, h5.phase, h5.files⟩
    · intro q hq
      rw [h3] at hq
      rw [if_neg hq]
      refine ⟨?_, rfl, rfl⟩
      unfold Dur.putOne
      rw [if_neg (Ne.symm hq)]

theorem put_rel {env : Env} {E A : List Event} {n : Nat} {w : Db} {slots : Nat → Dur.Slot}
    (h : MapRel env E A n w.map w.phase w.disk slots) (hl : Limits env E) {e : Event} (hw : WF e)
    (hs : (A ++ [e]).Sublist E) :
    ∃ m', putEvent env w e = .ok { w with map := m' } ∧
      MapRel env E (A ++ [e]) n m' w.phase w.disk (fun q => Dur.putOne env.iv q (slots q) e) := by
  obtain ⟨m', h1, h2⟩ := prev_rel h hl hw hs
  refine ⟨m', ?_, h2⟩
  unfold putEvent
  rw [h1]
  rfl

theorem puts_rel {env : Env} {E : List Event} {n : Nat} (hl : Limits env E) : ∀ (es : List Event) (A : List Event) (w : Db)
    (slots : Nat → Dur.Slot), MapRel env E A n w.map w.phase w.disk slots → (∀ e ∈ es, WF e) → (A ++ es).Sublist E →
    ∃ m', putAll env w es = .ok { w with map := m' } ∧
      MapRel env E (A ++ es) n m' w.phase w.disk (fun q => es.foldl (Dur.putOne env.iv q) (slots q)) := by
  intro es
  induction es with
  | nil =>
    intro A w slots h _ _
    exact ⟨w.map, rfl, by simpa using h⟩
  | cons e es ih =>
    intro A w slots h hw hs
    obtain ⟨m1, h1, h2⟩ := put_rel h hl (hw e (by simp)) (by
      refine List.Sublist.trans ?_ hs
      exact (List.Sublist.refl A).append (by simp))
    obtain ⟨m2, h3, h4⟩ := ih (A ++ [e]) { w with map := m1 } _ h2 (fun a ha => hw a (by simp [ha])) (by simpa using hs)
    refine ⟨m2, ?_, ?_⟩
    · unfold putAll
      rw [h1]
      simp only [Res.bind_ok]
      rw [h3]
    · simpa using h4

/-- One event of a commit. -/
theorem follow_rel {env : Env} {E A : List Event} {n l : Nat} {w : Db} {slots : Nat → Dur.Slot}
    (h : MapRel env E A n w.map w.phase w.disk slots) (hl : Limits env E) {e : Event} (he : e ∈ E)
    (hs : ∃ x, (slots (partOf env.iv e.id)).part = some x) :
    ∃ m', followEvent l w e = .ok { w with map := m' } ∧
      MapRel env E A n m' w.phase w.disk (fun q => Dur.followOne env.iv q l (slots q) e) := by
  rcases h.find hl (limits_ids hl he).2 with ⟨_, h2⟩ | ⟨x, y, h1, h2, h3, _, h4, h5⟩
  · obtain ⟨x, hx⟩ := hs
    rw [h2] at hx
    cases hx
  · refine ⟨setAt w.map x { x.v.val with act := x.v.val.act.follow l }, ?_, ?_⟩
    · unfold followEvent
      rw [h1]
      rfl
    · have e1 : Dur.followOne env.iv x.v.min l (slots x.v.min) e =
          { slots x.v.min with part := some { y with act := y.act.follow l } } := by
        unfold Dur.followOne
        rw [if_pos h3.symm, h4]
      refine h.update (List.Sublist.refl _) (Nat.le_refl _) h2 (y := { y with act := y.act.follow l }) ?_ ?_ ?_
      · rw [e1]
      · rw [e1]
        exact ⟨h5.act.follow l, h5.prev, h5.file, h5.phase, h5.files⟩
      · intro q hq
        refine ⟨?_, rfl, rfl⟩
        unfold Dur.followOne
        rw [if_neg (fun e => hq (e.symm.trans h3.symm))]

end Verif.Whole
