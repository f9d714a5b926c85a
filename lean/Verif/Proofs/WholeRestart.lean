import Verif.Proofs.WholeGc

/-! Helper lemmas: the restart of the whole database. -/
namespace Verif.Whole
open Rb Spec Io Mapping Cursor
open Dur (partOf tget tset Key partOr dur lsnOf recSlot evs replayOne)
open C84 (Limits)

/-- The partitions of a commit. -/
theorem follows_rel {env : Env} {E A : List Event} {n l : Nat} (hl : Limits env E) : ∀ (es : List Event) (w : Db)
    (slots : Nat → Dur.Slot), MapRel env E A n w.map w.phase w.disk slots → (∀ e ∈ es, e ∈ E) →
    (∀ e ∈ es, ∃ x, (slots (partOf env.iv e.id)).part = some x) →
    ∃ m', followAll l w es = .ok { w with map := m' } ∧
      MapRel env E A n m' w.phase w.disk (fun q => es.foldl (Dur.followOne env.iv q l) (slots q)) := by
  intro es
  induction es with
  | nil =>
    intro w slots h _ _
    exact ⟨w.map, rfl, h⟩
  | cons e es ih =>
    intro w slots h he hx
    obtain ⟨m1, h1, h2⟩ := follow_rel (l := l) h hl (he e (by simp)) (hx e (by simp))
    obtain ⟨m2, h3, h4⟩ := ih { w with map := m1 } _ h2 (fun a ha => he a (by simp [ha])) (by
      intro a ha
      obtain ⟨x, hx⟩ := hx a (by simp [ha])
      unfold Dur.followOne
      split
      · rw [hx]
        exact ⟨_, rfl⟩
      · exact ⟨x, hx⟩)
    refine ⟨m2, ?_, ?_⟩
    · unfold followAll
      rw [h1]
      simp only [Res.bind_ok]
      rw [h3]
    · simpa using h4

/-- One event of the replay. -/
theorem replay_rel {env : Env} {E A : List Event} {n l : Nat} {m : Mapping CPart} {phase : Nat → Phase}
    {disk : Nat → Files} {slots : Nat → Dur.Slot} (h : MapRel env E A n m phase disk slots) (hl : Limits env E)
    {e : Event} (hw : WF e) (hs : (A ++ [e]).Sublist E) :
    ∃ m', replayEvent env l m e = .ok m' ∧
      MapRel env E (A ++ [e]) n m' phase disk (fun q => replayOne env.iv q (slots q) (l, e)) := by
  have he : e ∈ E := hs.subset (by simp)
  obtain ⟨m', x, h1, h2, h3, h4, h5⟩ := h.lock hl (limits_ids hl he).1
  have hany : x.v.val.file.any (fun f => f.index.lsn ≥ l) =
      (partOr (slots (partOf env.iv e.id))).file.any (fun f => f.lsn ≥ l) := by
    have := h5.file
    unfold OpenRel at this
    cases hf : x.v.val.file <;> cases hg : (partOr (slots (partOf env.iv e.id))).file <;> rw [hf, hg] at this
    · rfl
    · exact this.elim
    · exact this.elim
    · simp only [Option.any_some]
      rw [this.lsn]
  by_cases hc : (partOr (slots (partOf env.iv e.id))).file.any (fun f => f.lsn ≥ l) = true
  · refine ⟨m', ?_, ?_⟩
    · unfold replayEvent
      rw [h1]
      simp only [Res.bind_ok]
      rw [if_pos (hany.trans hc)]
    · have hsl : (fun q => if q = partOf env.iv e.id then { slots q with part := some (partOr (slots q)) } else slots q) =
          fun q => replayOne env.iv q (slots q) (l, e) := by
        funext q
        unfold replayOne
        by_cases hq : partOf env.iv e.id = q
        · subst hq
          rw [if_pos rfl, if_pos rfl, if_pos hc]
          cases hp : (slots (partOf env.iv e.id)).part with
          | none =>
            rw [Dur.partOr_none hp] at hc
            cases hc
          | some y => rw [Dur.partOr_some hp, ← hp]
        · rw [if_neg (Ne.symm hq), if_neg hq]
      rw [← hsl]
      exact h4.mono (List.sublist_append_left _ _) (Nat.le_refl _)
  · obtain ⟨t, h6, h7⟩ := h5.act.set env.mc rfl hl.interval.1 hl.interval.2 hw.2.2.1
      (tame_sub (limits_tame hl _) (hs.filter _))
    refine ⟨setAt m' x { x.v.val with act := t.follow l }, ?_, ?_⟩
    · unfold replayEvent
      rw [h1]
      simp only [Res.bind_ok]
      rw [if_neg (by rw [hany]; exact hc), h6]
      rfl
    · have hr : replayOne env.iv (partOf env.iv e.id) (slots (partOf env.iv e.id)) (l, e) =
          { slots (partOf env.iv e.id) with
            part := some
              { partOr (slots (partOf env.iv e.id)) with
                act := ({ (partOr (slots (partOf env.iv e.id))).act with
                  tbl := tset (partOr (slots (partOf env.iv e.id))).act.tbl e }).follow l } } := by
        unfold replayOne
        rw [if_pos rfl, if_neg hc]
      refine h4.update (List.sublist_append_left _ _) (Nat.le_refl _) h2 (y :=
        { partOr (slots (partOf env.iv e.id)) with
          act := ({ (partOr (slots (partOf env.iv e.id))).act with
            tbl := tset (partOr (slots (partOf env.iv e.id))).act.tbl e }).follow l })
        ?_ ?_ ?_
      · rw [h3, hr]
      · rw [h3, hr]
        exact ⟨h7.follow l, h5.prev.mono (List.sublist_append_left _ _), h5.file, h5.phase, h5.files⟩
      · intro q hq
        rw [h3] at hq
        rw [if_neg hq]
        refine ⟨?_, rfl, rfl⟩
        unfold replayOne
        rw [if_neg (Ne.symm hq)]

theorem replays_rel {env : Env} {E : List Event} {n l : Nat} {phase : Nat → Phase} {disk : Nat → Files} (hl : Limits env E) :
    ∀ (es : List Event) (A : List Event) (m : Mapping CPart) (slots : Nat → Dur.Slot),
    MapRel env E A n m phase disk slots → (∀ e ∈ es, WF e) → (A ++ es).Sublist E →
    ∃ m', replayEvents env l m es = .ok m' ∧
      MapRel env E (A ++ es) n m' phase disk (fun q => (es.map fun e => (l, e)).foldl (replayOne env.iv q) (slots q)) := by
  intro es
  induction es with
  | nil =>
    intro A m slots h _ _
    exact ⟨m, rfl, by simpa using h⟩
  | cons e es ih =>
    intro A m slots h hw hs
    obtain ⟨m1, h1, h2⟩ := replay_rel (l := l) h hl (hw e (by simp)) (by
      refine List.Sublist.trans ?_ hs
      exact (List.Sublist.refl A).append (by simp))
    obtain ⟨m2, h3, h4⟩ := ih (A ++ [e]) m1 _ h2 (fun a ha => hw a (by simp [ha])) (by simpa using hs)
    refine ⟨m2, ?_, ?_⟩
    · unfold replayEvents
      rw [h1]
      simp only [Res.bind_ok]
      rw [h3]
    · simpa using h4

theorem replayAll_rel {env : Env} {E : List Event} {n : Nat} {phase : Nat → Phase} {disk : Nat → Files} (hl : Limits env E) :
    ∀ (rs : List Wal.Rec) (A : List Event) (m : Mapping CPart) (slots : Nat → Dur.Slot),
    MapRel env E A n m phase disk slots → Dur.OnlyWrites rs → (∀ y ∈ evs rs, WF y.2) →
    (A ++ (evs rs).map (·.2)).Sublist E →
    ∃ m', replay env m rs = .ok m' ∧
      MapRel env E (A ++ (evs rs).map (·.2)) n m' phase disk (fun q => (evs rs).foldl (replayOne env.iv q) (slots q)) := by
  intro rs
  induction rs with
  | nil =>
    intro A m slots h _ _ _
    exact ⟨m, rfl, by simpa [evs] using h⟩
  | cons r rs ih =>
    intro A m slots h hw hwf hs
    obtain ⟨l, c, es, rfl, _, _⟩ := hw r (by simp)
    have e2 : evs (.write l c es :: rs) = (es.map fun e => (l, e)) ++ evs rs := by simp [evs]
    have e3 : (evs (.write l c es :: rs)).map (·.2) = es ++ (evs rs).map (·.2) := by
      rw [e2, List.map_append, List.map_map]
      show es.map (fun e => e) ++ _ = _
      rw [List.map_id']
    rw [e3] at hs ⊢
    rw [e2] at hwf ⊢
    rw [← List.append_assoc] at hs ⊢
    obtain ⟨m1, h1, h2⟩ := replays_rel (l := l) hl es A m slots h
      (fun e he => hwf (l, e) (List.mem_append_left _ (List.mem_map.2 ⟨e, he, rfl⟩)))
      ((List.sublist_append_left _ _).trans hs)
    obtain ⟨m2, h3, h4⟩ := ih (A ++ es) m1 _ h2 (fun r hr => hw r (by simp [hr]))
      (fun y hy => hwf y (List.mem_append_right _ hy)) hs
    refine ⟨m2, ?_, ?_⟩
    · unfold replay
      rw [h1]
      simp only [Res.bind_ok]
      exact h3
    · simpa only [List.foldl_append] using h4

/-! The files. -/

theorem recoverFiles_rel {env : Env} {E : List Event} {n p : Nat} {fs : Files} {a : Dur.Files} {d : Option Dur.PFile}
    (h : FilesRel env E n p fs a) (hd : Dur.recover a = .ok d) :
    ∃ b, recoverFiles fs = .ok { id_ := b } ∧ BytesRel env E n p b d := by
  obtain ⟨i, c, o⟩ := fs
  obtain ⟨ai, ac, ao⟩ := a
  obtain ⟨h1, h2, h3⟩ := h
  dsimp only at h1 h2 h3
  cases i <;> cases ai <;> try exact h1.elim
  all_goals cases o <;> cases ao <;> try exact h2.elim
  all_goals cases c <;> cases ac <;> try cases h3
  all_goals simp only [Dur.recover] at hd
  all_goals first
    | (have hd := Res.ok.inj hd; subst hd; exact ⟨_, rfl, by assumption⟩)
    | (have hd := Res.ok.inj hd; subst hd; exact ⟨none, rfl, trivial⟩)
    | cases hd

/-- The files of a partition, whether it is in memory or not. -/
theorem MapRel.files {env : Env} {E A : List Event} {n : Nat} {m : Mapping CPart} {phase : Nat → Phase}
    {disk : Nat → Files} {slots : Nat → Dur.Slot} (h : MapRel env E A n m phase disk slots) (p : Nat) :
    FilesRel env E n p (disk p) (slots p).files ∧
    ((p + env.iv ≤ 2147483648 ∧ partOf env.iv p = p) ∨ (slots p = {} ∧ disk p = {})) := by
  obtain ⟨L, hL⟩ := h
  by_cases hs : ∃ s ∈ L, s.min = p
  · obtain ⟨s, hs, rfl⟩ := hs
    obtain ⟨x, _, hx⟩ := hL.has s hs
    obtain ⟨g1, g2, g3⟩ := hL.grid s hs
    exact ⟨hx.files, .inl ⟨g3, g2⟩⟩
  · obtain ⟨f1, f2, f3⟩ := hL.free p (fun s h e => hs ⟨s, h, e⟩)
    rw [f1, f3]
    exact ⟨⟨trivial, trivial, rfl⟩, .inr ⟨rfl, rfl⟩⟩

/-- The files of the storage directory. -/
def DiskRel (env : Env) (E : List Event) (n : Nat) (disk : Nat → Files) (slots : Nat → Dur.Slot) : Prop :=
  ∀ p, FilesRel env E n p (disk p) (slots p).files ∧
    ((p + env.iv ≤ 2147483648 ∧ partOf env.iv p = p) ∨ (slots p = {} ∧ disk p = {}))

/-- A partition is added to the index. -/
theorem MapRel.add {env : Env} {E A : List Event} {n p : Nat} {m : Mapping CPart} {phase : Nat → Phase}
    {disk disk' : Nat → Files} {slots slots' : Nat → Dur.Slot} (h : MapRel env E A n m phase disk slots) (hl : Limits env E)
    (hp : p + env.iv ≤ 2147483648) (hpp : partOf env.iv p = p) (hs : slots p = {}) {c : CPart} {y : Dur.Part}
    (hy : (slots' p).part = some y)
    (hr : PartRel env E A n p c (phase p) (disk' p) y (slots' p).files)
    (h1 : ∀ q, q ≠ p → slots' q = slots q ∧ disk' q = disk q) :
    ∃ m', m.add ⟨p, p + env.iv - 1, c⟩ = .ok m' ∧ MapRel env E A n m' phase disk' slots' := by
  obtain ⟨L, hL⟩ := h
  have hi := hl.interval.1
  have hv := hl.interval.2
  have h2 : ∀ s ∈ L, s.min ≠ p := by
    intro s hs' e
    obtain ⟨x, e1, _⟩ := hL.has s hs'
    rw [e, hs] at e1
    cases e1
  have hap : ∀ u ∈ L, Apart (⟨p, p + env.iv - 1, c⟩ : Slice CPart) u := by
    intro u hu
    obtain ⟨g1, g2, _⟩ := hL.grid u hu
    unfold Apart
    dsimp only
    by_cases c1 : u.max < p
    · exact .inr c1
    · left
      apply Nat.lt_of_not_le
      intro c2
      by_cases c3 : p ≤ u.min
      · have := partOf_of_in hpp c3 c2 hi
        exact h2 u hu (by rw [← g2]; exact this)
      · have := partOf_of_in g2 (id := p) (by omega) (by omega) hi
        rw [hpp] at this
        exact h2 u hu this.symm
  obtain ⟨m', lo, hi', a1, a2, a3, a4, a5⟩ := add_spec hL.inv (⟨p, p + env.iv - 1, c⟩ : Slice CPart)
    (by dsimp only; omega) (by dsimp only; omega) hap (hL.grid.near hi hv (.inl (by dsimp only; omega)))
  refine ⟨m', a1, _, a3, ?_, ?_, ?_⟩
  · intro s hs'
    rcases List.mem_append.1 hs' with hs' | hs'
    · exact hL.grid s (by rw [a2]; simp [hs'])
    · rcases List.mem_cons.1 hs' with rfl | hs'
      · exact ⟨rfl, hpp, hp⟩
      · exact hL.grid s (by rw [a2]; simp [hs'])
  · intro s hs'
    have hcase : s = ⟨p, p + env.iv - 1, c⟩ ∨ s ∈ L := by
      rcases List.mem_append.1 hs' with hs' | hs'
      · exact .inr (by rw [a2]; simp [hs'])
      · rcases List.mem_cons.1 hs' with rfl | hs'
        · exact .inl rfl
        · exact .inr (by rw [a2]; simp [hs'])
    rcases hcase with rfl | hs'
    · exact ⟨y, hy, hr⟩
    · obtain ⟨e1, e2⟩ := h1 s.min (h2 s hs')
      rw [e1, e2]
      exact hL.has s hs'
  · intro q hq
    have hne : q ≠ p := fun e => hq ⟨p, p + env.iv - 1, c⟩ (by simp) e.symm
    obtain ⟨e1, e2⟩ := h1 q hne
    rw [e1, e2]
    apply hL.free
    intro s hs'
    apply hq
    rw [a2] at hs'
    rcases List.mem_append.1 hs' with hs' | hs'
    · simp [hs']
    · simp [hs']

theorem mapRel_init (env : Env) (E : List Event) (n : Nat) :
    MapRel env E [] n Mapping.init (fun _ => .idle) (fun _ => {}) (fun _ => {}) :=
  ⟨[], Mapping.inv_init, by intro s hs; simp at hs, by intro s hs; simp at hs, fun _ _ => ⟨rfl, rfl, rfl⟩⟩

/-- engine_recover. -/
theorem recover_rel {env : Env} {E : List Event} {n k : Nat} {disk : Nat → Files} {db : Dur.Db} {H : List Wal.Rec}
    (h : DiskRel env E n disk db.slots) (hi : Dur.Inv env.iv db H k) (hl : Limits env E) :
    ∀ (ps P : List Nat) (r : Rec), (P ++ ps).Nodup →
      MapRel env E [] n r.map (fun _ => .idle) (fun q => if q ∈ P then r.disk q else {})
        (fun q => if q ∈ P then recSlot (db.slots q) else {}) →
      (∀ q, q ∉ P → r.disk q = disk q) →
      (∀ p ∈ P, lsnOf (dur (db.slots p).files) ≤ r.lsn) →
      (∀ b, (∀ p, lsnOf (dur (db.slots p).files) ≤ b) → r.lsn ≤ b) →
      ∃ r', recoverAll env.cs r ps = .ok r' ∧
        MapRel env E [] n r'.map (fun _ => .idle) (fun q => if q ∈ P ++ ps then r'.disk q else {})
          (fun q => if q ∈ P ++ ps then recSlot (db.slots q) else {}) ∧
        (∀ q, q ∉ P ++ ps → r'.disk q = disk q) ∧
        (∀ p ∈ P ++ ps, lsnOf (dur (db.slots p).files) ≤ r'.lsn) ∧
        (∀ b, (∀ p, lsnOf (dur (db.slots p).files) ≤ b) → r'.lsn ≤ b) := by
  intro ps
  induction ps with
  | nil =>
    intro P r hn h1 h2 h3 h4
    refine ⟨r, rfl, ?_⟩
    simp only [List.append_nil]
    exact ⟨h1, h2, h3, h4⟩
  | cons p ps ih =>
    intro P r hn h1 h2 h3 h4
    have hpP : p ∉ P := by
      rw [List.nodup_append] at hn
      intro hm
      exact hn.2.2 p hm p (by simp) rfl
    obtain ⟨hf, hgrid⟩ := h p
    obtain ⟨b, b1, b2⟩ := recoverFiles_rel hf (Dur.recover_eq (hi.slots p).disk)
    have hstep : ∃ r1, recoverOne env.cs r p = .ok r1 ∧
        MapRel env E [] n r1.map (fun _ => .idle) (fun q => if q ∈ P ++ [p] then r1.disk q else {})
          (fun q => if q ∈ P ++ [p] then recSlot (db.slots q) else {}) ∧
        (∀ q, q ∉ P ++ [p] → r1.disk q = disk q) ∧
        (∀ p' ∈ P ++ [p], lsnOf (dur (db.slots p').files) ≤ r1.lsn) ∧
        (∀ b, (∀ p, lsnOf (dur (db.slots p).files) ≤ b) → r1.lsn ≤ b) := by
      have hdisk : ∀ (fs : Files), ∀ q, q ∉ P ++ [p] → (if q = p then fs else r.disk q) = disk q := by
        intro fs q hq
        simp only [List.mem_append, List.mem_singleton, not_or] at hq
        rw [if_neg hq.2]
        exact h2 q hq.1
      have hmem : ∀ q, q ≠ p → (q ∈ P ++ [p] ↔ q ∈ P) := by
        intro q hq
        simp [hq]
      have hself : p ∈ P ++ [p] := by simp
      cases hd : dur (db.slots p).files with
      | none =>
        rw [hd] at b2
        cases b with
        | some b => exact b2.elim
        | none =>
          refine ⟨{ r with disk := fun q => if q = p then {} else r.disk q }, ?_, ?_, hdisk _, ?_, h4⟩
          · unfold recoverOne
            rw [h2 p hpP, b1]
            rfl
          · have e1 : (fun q => if q ∈ P ++ [p] then (if q = p then ({} : Files) else r.disk q) else {}) =
                fun q => if q ∈ P then r.disk q else {} := by
              funext q
              by_cases hq : q = p
              · subst hq
                rw [if_pos hself, if_pos rfl, if_neg hpP]
              · simp only [hmem q hq, if_neg hq]
            have e2 : (fun q => if q ∈ P ++ [p] then recSlot (db.slots q) else {}) =
                fun q => if q ∈ P then recSlot (db.slots q) else {} := by
              funext q
              by_cases hq : q = p
              · subst hq
                rw [if_pos hself, if_neg hpP]
                unfold recSlot
                rw [hd]
              · simp only [hmem q hq]
            dsimp only
            rw [e1, e2]
            exact h1
          · intro q hq
            rcases List.mem_append.1 hq with hq | hq
            · exact h3 q hq
            · simp only [List.mem_singleton] at hq
              subst hq
              rw [hd]
              exact Nat.zero_le _
      | some d =>
        rw [hd] at b2
        cases b with
        | none => exact b2.elim
        | some b =>
          obtain ⟨f, rfl, f2⟩ := b2
          have hg : p + env.iv ≤ 2147483648 ∧ partOf env.iv p = p := by
            rcases hgrid with hg | ⟨hg, _⟩
            · exact hg
            · rw [hg] at hd
              cases hd
          have e2 : recSlot (db.slots p) = { part := some { file := some d }, files := { id_ := some d } } := by
            unfold recSlot
            rw [hd]
          obtain ⟨m', m1, m2⟩ := h1.add hl hg.1 hg.2 (by rw [if_neg hpP])
            (c := { newPart with file := some f }) (y := { file := some d })
            (disk' := fun q => if q ∈ P ++ [p] then (if q = p then ({ id_ := some f.file } : Files) else r.disk q) else {})
            (slots' := fun q => if q ∈ P ++ [p] then recSlot (db.slots q) else {})
            (by rw [if_pos hself, e2])
            (by
              rw [if_pos hself, if_pos hself, if_pos rfl, e2]
              exact ⟨memRel_init _ _ _, memRel_init _ _ _, f2, rfl, ⟨f, rfl, f2⟩, trivial, rfl⟩)
            (by
              intro q hq
              simp only [hmem q hq, if_neg hq]
              exact ⟨trivial, trivial⟩)
          refine ⟨⟨m', fun q => if q = p then { id_ := some f.file } else r.disk q,
            if f.index.lsn > r.lsn then f.index.lsn else r.lsn⟩, ?_, m2, hdisk _, ?_, ?_⟩
          · unfold recoverOne
            rw [h2 p hpP, b1]
            simp only [Res.bind_ok]
            rw [f2.opens]
            simp only [Res.bind_ok]
            rw [f2.idMin, f2.idMax, m1]
            rfl
          · intro q hq
            dsimp only
            rw [f2.lsn]
            rcases List.mem_append.1 hq with hq | hq
            · have := h3 q hq
              split <;> omega
            · simp only [List.mem_singleton] at hq
              subst hq
              rw [hd]
              simp only [lsnOf]
              split <;> omega
          · intro b hb
            have := h4 b hb
            have h8 := hb p
            rw [hd] at h8
            simp only [lsnOf] at h8
            dsimp only
            rw [f2.lsn]
            split <;> omega
    obtain ⟨r1, s1, s2, s3, s4, s5⟩ := hstep
    obtain ⟨r', t1, t2⟩ := ih (P ++ [p]) r1 (by simpa using hn) s2 s3 s4 s5
    refine ⟨r', ?_, by simpa using t2⟩
    unfold recoverAll
    rw [s1]
    exact t1

end Verif.Whole
