import Verif.Proofs.DurInv

/-! Helper lemmas: batches, restarts, histories. -/
namespace Verif.Dur
open Wal (Rec)

/-! Batches. -/

def putOne (iv q : Nat) (s : Slot) (e : Event) : Slot :=
  if partOf iv e.id = q then
    { s with part := some { partOr s with act := { (partOr s).act with tbl := tset (partOr s).act.tbl e } } }
  else s

theorem put_slots (iv : Nat) (db : Db) (e : Event) (q : Nat) : (putEvent iv db e).slots q = putOne iv q (db.slots q) e := by
  show (db.set _ _).slots q = _
  rw [set_slots]
  unfold putOne
  by_cases h : partOf iv e.id = q
  · subst h
    rw [if_pos rfl, if_pos rfl]
    rfl
  · rw [if_neg (Ne.symm h), if_neg h]

theorem puts_slots (iv q : Nat) : ∀ (es : List Event) (db : Db),
    (es.foldl (putEvent iv) db).slots q = es.foldl (putOne iv q) (db.slots q) := by
  intro es
  induction es with
  | nil => intro db; rfl
  | cons e es ih =>
    intro db
    rw [List.foldl_cons, List.foldl_cons, ih, put_slots]

theorem puts_rest (iv : Nat) : ∀ (es : List Event) (db : Db),
    (es.foldl (putEvent iv) db).wal = db.wal ∧ (es.foldl (putEvent iv) db).cur = db.cur ∧
    (es.foldl (putEvent iv) db).lsn = db.lsn ∧
    ((∀ p, p ∉ db.known → db.slots p = {}) →
      ∀ p, p ∉ (es.foldl (putEvent iv) db).known → (es.foldl (putEvent iv) db).slots p = {}) := by
  intro es
  induction es with
  | nil => intro db; exact ⟨rfl, rfl, rfl, id⟩
  | cons e es ih =>
    intro db
    rw [List.foldl_cons]
    obtain ⟨h1, h2, h3, h4⟩ := ih (putEvent iv db e)
    exact ⟨h1, h2, h3, fun h => h4 (known_set h _ _)⟩

theorem put_spec (iv q : Nat) : ∀ (es : List Event) (s : Slot), ∃ T,
    partOr (es.foldl (putOne iv q) s) = { partOr s with act := { (partOr s).act with tbl := T } } ∧
    (es.foldl (putOne iv q) s).files = s.files ∧
    (T = [] → (partOr s).act.tbl = []) ∧
    ∀ k : Key, partOf iv k.1 = q → tget T k = (lastOf es k).or (tget (partOr s).act.tbl k) := by
  intro es
  induction es with
  | nil => intro s; exact ⟨(partOr s).act.tbl, rfl, rfl, id, fun k _ => rfl⟩
  | cons e es ih =>
    intro s
    rw [List.foldl_cons]
    obtain ⟨T, h1, h2, h4, h3⟩ := ih (putOne iv q s e)
    by_cases he : partOf iv e.id = q
    · have e1 : putOne iv q s e =
          { s with part := some { partOr s with act := { (partOr s).act with tbl := tset (partOr s).act.tbl e } } } := by
        unfold putOne; rw [if_pos he]
      have e2 : partOr (putOne iv q s e) = { partOr s with act := { (partOr s).act with tbl := tset (partOr s).act.tbl e } } := by
        rw [e1]; rfl
      refine ⟨T, ?_, ?_, ?_, ?_⟩
      · rw [h1, e2]
      · rw [h2, e1]
      · intro hT
        have := h4 hT
        rw [e2] at this
        simp [tset] at this
      · intro k hk
        rw [h3 k hk, e2, lastOf_cons, tget_tset]
        by_cases hek : e.pair = k
        · simp [hek, Option.or_assoc]
        · simp [hek]
    · have e1 : putOne iv q s e = s := by unfold putOne; rw [if_neg he]
      rw [e1] at h1 h2 h3 h4 ⊢
      refine ⟨T, h1, h2, h4, ?_⟩
      intro k hk
      rw [h3 k hk, lastOf_cons, if_neg, Option.or_none]
      rintro rfl
      exact he hk

theorem vl_new (P : Nat → Bool) (H : List Rec) (l m : Nat) (es : List Event) (k : Key) :
    vl P (evs (H ++ [.write l m es])) k = if P l then (lastOf es k).or (vl P (evs H) k) else vl P (evs H) k := by
  rw [evs_append, evs_write, vl_append, vl_batch]
  cases P l <;> simp

theorem fileOK_new {iv p lsn : Nat} {H : List Rec} {f : Option PFile} (h : FileOK iv H p f) (hl : lsnOf f ≤ lsn)
    (m : Nat) (es : List Event) : FileOK iv (H ++ [.write (lsn + 1) m es]) p f := by
  intro k hk
  rw [vl_new, if_neg]
  · exact h k hk
  · simp only [decide_eq_true_eq]
    omega

theorem log_inv0 {iv n : Nat} {db : Db} {H : List Rec} (h : Inv0 iv db H n) (hp : db.pending = none) {es : List Event}
    (hes : es ≠ []) :
    Inv0 iv (log iv db es) (H ++ [.write (db.lsn + 1) es.length es]) n := by
  have hev : ∀ y ∈ evs H, y.1 ≤ db.lsn := fun y hy => Nat.le_trans (evs_le h.asc hy) h.last
  have hle := h.nle
  obtain ⟨r1, r2, r3, r4⟩ := puts_rest iv es db
  have hlog : log iv db es =
      { (es.foldl (putEvent iv) db).append (.write (db.lsn + 1) es.length es) with pending := some (db.lsn + 1, es) } := by
    unfold log
    rw [hp]
  rw [hlog]
  obtain ⟨w, rs, hw⟩ := h.cur
  have hwal : (((es.foldl (putEvent iv) db).append (.write (db.lsn + 1) es.length es)).wal) =
      w ++ [(db.cur, rs ++ [.write (db.lsn + 1) es.length es])] := by
    unfold Db.append
    simp only
    rw [r1, r2, hw, List.map_append]
    congr 1
    · have hf := h.files
      rw [hw, List.pairwise_append] at hf
      rw [List.map_congr_left (g := id)]
      · simp
      · intro f hfm
        have := (hf.2.2 f hfm _ (List.mem_singleton.2 rfl)).1
        simp only at this
        rw [if_neg (by omega)]
        rfl
    · simp
  have hlsn : (((es.foldl (putEvent iv) db).append (.write (db.lsn + 1) es.length es)).lsn) = db.lsn + 1 := by
    unfold Db.append
    simp only
    rw [r3]
  have hcur : (((es.foldl (putEvent iv) db).append (.write (db.lsn + 1) es.length es)).cur) = db.cur := r2
  constructor
  · intro r hr
    rcases List.mem_append.1 hr with hr | hr
    · exact h.writes r hr
    · simp only [List.mem_singleton] at hr
      exact ⟨_, _, _, hr, hes, by omega⟩
  · rw [List.pairwise_append]
    refine ⟨h.asc, List.pairwise_singleton _ _, ?_⟩
    intro a ha b hb
    simp only [List.mem_singleton] at hb
    have := le_last h.asc ha
    have h1 := h.last
    rw [hb]
    show a.lsn < db.lsn + 1
    omega
  · rw [lastLsn_append]
    exact Nat.le_of_eq hlsn.symm
  · rw [List.length_append]
    omega
  · show List.flatMap _ _ = _
    rw [hwal, List.flatMap_append, List.drop_append_of_le_length hle, ← h.wal, hw, List.flatMap_append]
    simp
  · show List.Pairwise _ _
    rw [hwal, List.pairwise_append]
    have hf := h.files
    rw [hw, List.pairwise_append] at hf
    refine ⟨hf.1, List.pairwise_singleton _ _, ?_⟩
    intro f hfm g hg
    simp only [List.mem_singleton] at hg
    subst hg
    exact hf.2.2 f hfm (db.cur, rs) (List.mem_singleton.2 rfl)
  · intro f hf r hr
    replace hf : f ∈ ((es.foldl (putEvent iv) db).append (.write (db.lsn + 1) es.length es)).wal := hf
    rw [hwal] at hf
    rcases List.mem_append.1 hf with hf | hf
    · exact h.ids f (by rw [hw]; simp [hf]) r hr
    · simp only [List.mem_singleton] at hf
      subst hf
      rcases List.mem_append.1 hr with hr | hr
      · exact h.ids (db.cur, rs) (by rw [hw]; simp) r hr
      · simp only [List.mem_singleton] at hr
        rw [hr]
        exact h.curLe
  · exact ⟨w, _, by rw [← hcur] at hwal; exact hwal⟩
  · show Db.cur _ ≤ Db.lsn _ + 1
    rw [hcur, hlsn]
    have := h.curLe
    omega
  · intro p
    obtain ⟨T, t1, t2, t4, t3⟩ := put_spec iv p es (db.slots p)
    rw [← puts_slots] at t1 t2
    have hs := h.slots p
    have hx := hs.part
    show SlotOK iv _ (Db.lsn _) _ p ((es.foldl (putEvent iv) db).slots p)
    rw [hlsn]
    have htop : top { partOr (db.slots p) with act := { (partOr (db.slots p)).act with tbl := T } } = top (partOr (db.slots p)) := rfl
    have htl : top (partOr (db.slots p)) ≤ db.lsn := Nat.max_le.2 ⟨hx.fb, hx.pb⟩
    have hmem : ∀ y ∈ evs (H ++ [.write (db.lsn + 1) es.length es]), y ∈ evs H ∨ y.1 = db.lsn + 1 := by
      intro y hy
      rw [evs_append, evs_write] at hy
      rcases List.mem_append.1 hy with hy | hy
      · exact .inl hy
      · obtain ⟨e, _, rfl⟩ := List.mem_map.1 hy
        exact .inr rfl
    refine ⟨?_, ?_, ?_, ?_⟩
    · rw [t1]
      refine ⟨fileOK_new hx.file hx.fb _ _, ?_, ?_, ?_, ?_, ?_, ?_, ?_, hx.empty, ?_, hx.after, ?_, ?_⟩
      · intro k hk
        rw [htop, vl_new, if_neg]
        · exact hx.prev k hk
        · simp only [Bool.and_eq_true, decide_eq_true_eq]
          omega
      · intro k hk
        rw [htop, vl_new, if_pos]
        · show tget T k = _
          rw [t3 k hk, hx.act k hk]
        · simp only [decide_eq_true_eq]
          omega
      · intro y hy hyp hlt hnp
        rw [htop] at hlt
        rcases hmem y hy with hy | hy
        · apply hx.range y hy hyp hlt
          rintro ⟨es', he'⟩
          rw [hp] at he'
          cases he'
        · exact absurd ⟨es, by rw [hy]⟩ hnp
      · intro y hy hyp hlt hle
        rw [htop] at hle
        rcases hmem y hy with hy | hy
        · exact hx.prevMin y hy hyp hlt hle
        · omega
      · have := hx.fb
        exact Nat.le_succ_of_le this
      · exact Nat.le_succ_of_le hx.pb
      · exact Nat.le_succ_of_le hx.ab
      · intro f hf
        exact hx.merged f hf
      · intro y hy hyp hpd
        obtain ⟨es', he'⟩ := hpd
        simp only [Option.some.injEq, Prod.mk.injEq] at he'
        rw [htop]
        omega
      · rcases hx.mini with hm | hm
        · exact .inl hm
        · exact .inr fun hT => hm (t4 hT)
    · rw [t1, t2]
      exact hs.disk
    · rw [t2]
      exact fileOK_new hs.durOK (Nat.le_trans hs.durB hx.fb) _ _
    · rw [t1, t2]
      exact hs.durB
  · intro y hy
    rw [List.take_append_of_le_length hle] at hy
    have h1 := h.cover y hy
    obtain ⟨T, t1, t2, t4, t3⟩ := put_spec iv (partOf iv y.2.id) es (db.slots (partOf iv y.2.id))
    rw [← puts_slots] at t2
    show y.1 ≤ lsnOf (dur ((es.foldl (putEvent iv) db).slots (partOf iv y.2.id)).files)
    rw [t2]
    exact h1
  · exact r4 h.known
  · intro l es' he
    simp only [Option.some.injEq, Prod.mk.injEq] at he
    obtain ⟨rfl, rfl⟩ := he
    exact ⟨H, _, rfl⟩

def followOne (iv q l : Nat) (s : Slot) (e : Event) : Slot :=
  if partOf iv e.id = q then
    match s.part with
    | none => s
    | some x => { s with part := some { x with act := x.act.follow l } }
  else s

theorem follow_slots (iv l : Nat) (db : Db) (e : Event) (q : Nat) :
    (followEvent iv l db e).slots q = followOne iv q l (db.slots q) e := by
  unfold followEvent followOne
  cases hs : (db.slots (partOf iv e.id)).part with
  | none =>
    dsimp only
    rw [hs]
    by_cases h : partOf iv e.id = q
    · subst h
      rw [if_pos rfl, hs]
    · rw [if_neg h]
  | some x =>
    dsimp only
    rw [hs]
    dsimp only
    rw [set_slots]
    by_cases h : partOf iv e.id = q
    · subst h
      rw [if_pos rfl, if_pos rfl, hs]
    · rw [if_neg (Ne.symm h), if_neg h]

theorem follows_slots (iv q l : Nat) : ∀ (es : List Event) (db : Db),
    (es.foldl (followEvent iv l) db).slots q = es.foldl (followOne iv q l) (db.slots q) := by
  intro es
  induction es with
  | nil => intro db; rfl
  | cons e es ih =>
    intro db
    rw [List.foldl_cons, List.foldl_cons, ih, follow_slots]

theorem follow_rest (iv l : Nat) (db : Db) (e : Event) :
    (followEvent iv l db e).wal = db.wal ∧ (followEvent iv l db e).cur = db.cur ∧
    (followEvent iv l db e).lsn = db.lsn ∧
    ((∀ p, p ∉ db.known → db.slots p = {}) →
      ∀ p, p ∉ (followEvent iv l db e).known → (followEvent iv l db e).slots p = {}) := by
  unfold followEvent
  dsimp only
  split
  · exact ⟨rfl, rfl, rfl, id⟩
  · exact ⟨rfl, rfl, rfl, fun h => known_set h _ _⟩

theorem follows_rest (iv l : Nat) : ∀ (es : List Event) (db : Db),
    (es.foldl (followEvent iv l) db).wal = db.wal ∧ (es.foldl (followEvent iv l) db).cur = db.cur ∧
    (es.foldl (followEvent iv l) db).lsn = db.lsn ∧
    ((∀ p, p ∉ db.known → db.slots p = {}) →
      ∀ p, p ∉ (es.foldl (followEvent iv l) db).known → (es.foldl (followEvent iv l) db).slots p = {}) := by
  intro es
  induction es with
  | nil => intro db; exact ⟨rfl, rfl, rfl, id⟩
  | cons e es ih =>
    intro db
    rw [List.foldl_cons]
    obtain ⟨h1, h2, h3, h4⟩ := ih (followEvent iv l db e)
    obtain ⟨g1, g2, g3, g4⟩ := follow_rest iv l db e
    exact ⟨h1.trans g1, h2.trans g2, h3.trans g3, fun h => h4 (g4 h)⟩

theorem Mem.follow_tbl (m : Mem) (l : Nat) : (m.follow l).tbl = m.tbl := rfl

theorem Mem.follow_min (m : Mem) (l : Nat) : (m.follow l).lsnMin ≤ m.lsnMin ∧ (m.follow l).lsnMin ≤ l := by
  unfold Mem.follow
  simp only
  split <;> omega

theorem Mem.follow_max (m : Mem) (l : Nat) :
    m.lsnMax ≤ (m.follow l).lsnMax ∧ l ≤ (m.follow l).lsnMax ∧ (m.follow l).lsnMax ≤ max m.lsnMax l := by
  unfold Mem.follow
  simp only
  split <;> omega

theorem follow_spec (iv q l : Nat) : ∀ (es : List Event) (s : Slot), ∃ A : Mem,
    partOr (es.foldl (followOne iv q l) s) = { partOr s with act := A } ∧
    (es.foldl (followOne iv q l) s).files = s.files ∧
    A.tbl = (partOr s).act.tbl ∧ A.lsnMin ≤ (partOr s).act.lsnMin ∧ (partOr s).act.lsnMax ≤ A.lsnMax ∧
    A.lsnMax ≤ max (partOr s).act.lsnMax l ∧
    (A = (partOr s).act ∨ ∃ e ∈ es, partOf iv e.id = q) ∧
    ((∃ x, s.part = some x) → (∃ e ∈ es, partOf iv e.id = q) → A.lsnMin ≤ l ∧ l ≤ A.lsnMax) := by
  intro es
  induction es with
  | nil =>
    intro s
    refine ⟨(partOr s).act, rfl, rfl, rfl, Nat.le_refl _, Nat.le_refl _, Nat.le_max_left _ _, .inl rfl, ?_⟩
    rintro _ ⟨e, he, _⟩
    simp at he
  | cons e es ih =>
    intro s
    rw [List.foldl_cons]
    by_cases he : partOf iv e.id = q
    · cases hs : s.part with
      | none =>
        have e1 : followOne iv q l s e = s := by unfold followOne; rw [if_pos he, hs]
        rw [e1]
        obtain ⟨A, h1, h2, h3, h4, h5, h6, _⟩ := ih s
        refine ⟨A, h1, h2, h3, h4, h5, h6, .inr ⟨e, by simp, he⟩, ?_⟩
        rintro ⟨x, hx⟩
        cases hx
      | some x =>
        have e1 : followOne iv q l s e = { s with part := some { x with act := x.act.follow l } } := by
          unfold followOne; rw [if_pos he, hs]
        rw [e1]
        obtain ⟨A, h1, h2, h3, h4, h5, h6, _⟩ := ih { s with part := some { x with act := x.act.follow l } }
        have e2 : partOr ({ s with part := some { x with act := x.act.follow l } } : Slot) =
          { x with act := x.act.follow l } := rfl
        rw [e2] at h1 h3 h4 h5 h6
        simp only at h3 h4 h5 h6
        obtain ⟨m1, m2⟩ := Mem.follow_min x.act l
        obtain ⟨m3, m4, m5⟩ := Mem.follow_max x.act l
        rw [partOr_some hs]
        refine ⟨A, h1, h2, h3, by omega, by omega, by omega, .inr ⟨e, by simp, he⟩, ?_⟩
        intro _ _
        exact ⟨by omega, by omega⟩
    · have e1 : followOne iv q l s e = s := by unfold followOne; rw [if_neg he]
      rw [e1]
      obtain ⟨A, h1, h2, h3, h4, h5, h6, h8, h7⟩ := ih s
      refine ⟨A, h1, h2, h3, h4, h5, h6, ?_, ?_⟩
      · rcases h8 with h8 | ⟨e', he', hq⟩
        · exact .inl h8
        · exact .inr ⟨e', by simp [he'], hq⟩
      intro hx ⟨e', he', hq⟩
      apply h7 hx
      rcases List.mem_cons.1 he' with rfl | he'
      · exact absurd hq he
      · exact ⟨e', he', hq⟩

theorem mergeFile_act (x : Part) (A : Mem) : mergeFile { x with act := A } = mergeFile x := rfl

theorem commit_inv0 {iv n : Nat} {db : Db} {H : List Rec} (h : Inv0 iv db H n) : Inv0 iv (commit iv db) H n := by
  unfold commit
  cases hp : db.pending with
  | none => exact h
  | some q =>
    obtain ⟨l, es⟩ := q
    simp only
    obtain ⟨r1, r2, r3, r4⟩ := follows_rest iv l es db
    obtain ⟨H0, m, hH⟩ := h.pending l es hp
    have hl : l ≤ db.lsn := by
      have := h.last
      rw [hH, lastLsn_append] at this
      exact this
    constructor
    · exact h.writes
    · exact h.asc
    · exact Nat.le_trans h.last (Nat.le_of_eq r3.symm)
    · exact h.nle
    · show List.flatMap _ (Db.wal _) = _
      rw [r1]
      exact h.wal
    · show List.Pairwise _ (Db.wal _)
      rw [r1]
      exact h.files
    · intro f hf
      replace hf : f ∈ (es.foldl (followEvent iv l) db).wal := hf
      rw [r1] at hf
      exact h.ids f hf
    · obtain ⟨w, rs, hw⟩ := h.cur
      refine ⟨w, rs, ?_⟩
      show Db.wal _ = w ++ [(Db.cur _, rs)]
      rw [r1, r2]
      exact hw
    · show Db.cur _ ≤ Db.lsn _ + 1
      rw [r2, r3]
      exact h.curLe
    · intro p
      obtain ⟨A, a1, a2, a3, a4, a5, a6, a8, a7⟩ := follow_spec iv p l es (db.slots p)
      rw [← follows_slots] at a1 a2
      have hs := h.slots p
      have hx := hs.part
      show SlotOK iv _ (Db.lsn _) _ p ((es.foldl (followEvent iv l) db).slots p)
      rw [r3]
      have htop : top { partOr (db.slots p) with act := A } = top (partOr (db.slots p)) := rfl
      refine ⟨?_, ?_, ?_, ?_⟩
      · rw [a1]
        refine ⟨hx.file, hx.prev, ?_, ?_, hx.prevMin, hx.fb, hx.pb, ?_, hx.empty, hx.merged, hx.after, ?_, ?_⟩
        · intro k hk
          show tget A.tbl k = _
          rw [a3]
          exact hx.act k hk
        · intro y hy hyp hlt _
          rw [htop] at hlt
          show A.lsnMin ≤ y.1 ∧ y.1 ≤ A.lsnMax
          by_cases hyl : y.1 = l
          · rw [hyl]
            apply a7 (has h.writes hs hy hyp)
            refine ⟨y.2, ?_, hyp⟩
            obtain ⟨r, hr, _, n', es', rfl, he'⟩ := evs_lsn hy
            have ha := h.asc
            rw [hH] at hr ha
            rcases List.mem_append.1 hr with hr | hr
            · rw [List.pairwise_append] at ha
              have := ha.2.2 _ hr _ (List.mem_singleton.2 rfl)
              simp only [Rec.lsn] at this
              omega
            · simp only [List.mem_singleton, Rec.write.injEq] at hr
              rw [← hr.2.2]
              exact he'
          · have := hx.range y hy hyp hlt (by
              rintro ⟨es', he'⟩
              rw [hp] at he'
              simp only [Option.some.injEq, Prod.mk.injEq] at he'
              omega)
            omega
        · show A.lsnMax ≤ db.lsn
          have := hx.ab
          omega
        · rintro y _ _ ⟨es', he'⟩
          cases he'
        · rcases a8 with rfl | ⟨e, he, heq⟩
          · exact hx.mini
          · right
            show A.tbl ≠ []
            rw [a3]
            intro hnil
            have hy : (l, e) ∈ evs H := by
              rw [hH, evs_append, evs_write]
              exact List.mem_append.2 (.inr (List.mem_map.2 ⟨e, he, rfl⟩))
            have hlt := hx.held (l, e) hy heq ⟨es, hp⟩
            have h1 := hx.act e.pair heq
            rw [hnil] at h1
            exact vl_mem_ne_none hy (P := fun l => decide (top (partOr (db.slots p)) < l)) (by simpa using hlt) h1.symm
      · rw [a1, a2]
        exact hs.disk
      · rw [a2]
        exact hs.durOK
      · rw [a1, a2]
        exact hs.durB
    · intro y hy
      have h1 := h.cover y hy
      obtain ⟨A, a1, a2, _⟩ := follow_spec iv (partOf iv y.2.id) l es (db.slots (partOf iv y.2.id))
      rw [← follows_slots] at a2
      show y.1 ≤ lsnOf (dur ((es.foldl (followEvent iv l) db).slots (partOf iv y.2.id)).files)
      rw [a2]
      exact h1
    · exact r4 h.known
    · intro l' es' he
      cases he

/-! Restart. -/

def recSlot (s : Slot) : Slot :=
  match dur s.files with
  | none => {}
  | some f => { part := some { file := some f }, files := { id_ := some f } }

theorem recoverSlot_eq {s : Slot} (h : DiskOK (partOr s) s.files) : recoverSlot s = .ok (recSlot s) := by
  unfold recoverSlot recSlot
  rw [recover_eq h, Res.bind_ok]
  cases dur s.files <;> rfl

theorem recoverAll_spec (db : Db) (hd : ∀ p, DiskOK (partOr (db.slots p)) (db.slots p).files) : ∀ (ps : List Nat), ∃ db1,
    recoverAll db ps = .ok db1 ∧ (∀ q, db1.slots q = if q ∈ ps then recSlot (db.slots q) else db.slots q) ∧
    (∀ q, q ∉ db1.known → q ∉ db.known) ∧ db1.wal = db.wal ∧ db1.pending = none ∧
    (∀ p ∈ ps, lsnOf (dur (db.slots p).files) ≤ db1.lsn) ∧
    (∀ b, (∀ p, lsnOf (dur (db.slots p).files) ≤ b) → db1.lsn ≤ b) := by
  intro ps
  induction ps with
  | nil =>
    refine ⟨_, rfl, ?_, fun _ h => h, rfl, rfl, ?_, fun _ _ => Nat.zero_le _⟩
    · intro q; simp
    · simp
  | cons p ps ih =>
    obtain ⟨db1, h1, h2, h3, h4, h5, h6, h7⟩ := ih
    have hslots : ∀ q, (db1.set p (recSlot (db.slots p))).slots q =
        if q ∈ p :: ps then recSlot (db.slots q) else db.slots q := by
      intro q
      rw [set_slots, h2]
      by_cases hq : q = p
      · subst hq
        simp
      · simp [hq]
    have hknown : ∀ q, q ∉ (db1.set p (recSlot (db.slots p))).known → q ∉ db.known := by
      intro q hq
      apply h3
      intro hk
      apply hq
      unfold Db.set
      simp only
      by_cases hp : p ∈ db1.known <;> simp [hp, hk]
    have e1 : recoverAll db (p :: ps) = (recoverAll db ps).bind fun db' =>
      (recoverSlot (db.slots p)).bind fun s =>
      let db2 := db'.set p s
      .ok
        (match s.part with
        | some { file := some f, .. } => { db2 with lsn := if f.lsn > db2.lsn then f.lsn else db2.lsn }
        | _ => db2) := rfl
    rw [h1, Res.bind_ok, recoverSlot_eq (hd p), Res.bind_ok] at e1
    cases hdur : dur (db.slots p).files with
    | none =>
      have e2 : recSlot (db.slots p) = {} := by unfold recSlot; rw [hdur]
      refine ⟨db1.set p (recSlot (db.slots p)), ?_, hslots, hknown, h4, h5, ?_, h7⟩
      · rw [e1]
        dsimp only
        rw [e2]
      · intro q hq
        rcases List.mem_cons.1 hq with rfl | hq
        · rw [hdur]
          exact Nat.zero_le _
        · exact h6 q hq
    | some f =>
      have e2 : recSlot (db.slots p) = { part := some { file := some f }, files := { id_ := some f } } := by
        unfold recSlot; rw [hdur]
      refine ⟨{ db1.set p (recSlot (db.slots p)) with lsn := if f.lsn > db1.lsn then f.lsn else db1.lsn },
        ?_, hslots, hknown, h4, h5, ?_, ?_⟩
      · rw [e1]
        dsimp only
        rw [e2]
        rfl
      · intro q hq
        simp only
        rcases List.mem_cons.1 hq with rfl | hq
        · rw [hdur]
          simp only [lsnOf]
          split <;> omega
        · have := h6 q hq
          split <;> omega
      · intro b hb
        simp only
        have := h7 b hb
        have h8 := hb p
        rw [hdur] at h8
        simp only [lsnOf] at h8
        split <;> omega

def replayOne (iv q : Nat) (s : Slot) (y : Nat × Event) : Slot :=
  if partOf iv y.2.id = q then
    if (partOr s).file.any (fun f => f.lsn ≥ y.1) then s
    else
      { s with
        part := some
          { partOr s with act := ({ (partOr s).act with tbl := tset (partOr s).act.tbl y.2 }).follow y.1 } }
  else s

theorem replay_slots (iv l : Nat) (db : Db) (e : Event) (q : Nat) :
    (replayEvent iv l db e).slots q = replayOne iv q (db.slots q) (l, e) := by
  have e1 : replayEvent iv l db e =
      if (partOr (db.slots (partOf iv e.id))).file.any (fun f => f.lsn ≥ l) then db
      else
        db.set (partOf iv e.id)
          { db.slots (partOf iv e.id) with
            part := some
              { partOr (db.slots (partOf iv e.id)) with
                act := ({ (partOr (db.slots (partOf iv e.id))).act with
                  tbl := tset (partOr (db.slots (partOf iv e.id))).act.tbl e }).follow l } } := rfl
  rw [e1]
  unfold replayOne
  by_cases h : partOf iv e.id = q
  · rw [if_pos h]
    subst h
    by_cases hf : (partOr (db.slots (partOf iv e.id))).file.any (fun f => f.lsn ≥ l) = true
    · rw [if_pos hf, if_pos hf]
    · rw [if_neg hf, if_neg hf, set_slots, if_pos rfl]
  · rw [if_neg h]
    split
    · rfl
    · rw [set_slots, if_neg (Ne.symm h)]

theorem replay_rest (iv l : Nat) (db : Db) (e : Event) :
    (replayEvent iv l db e).wal = db.wal ∧ (replayEvent iv l db e).cur = db.cur ∧
    (replayEvent iv l db e).lsn = db.lsn ∧ (replayEvent iv l db e).pending = db.pending ∧
    ((∀ p, p ∉ db.known → db.slots p = {}) →
      ∀ p, p ∉ (replayEvent iv l db e).known → (replayEvent iv l db e).slots p = {}) := by
  have e1 : replayEvent iv l db e =
      if (partOr (db.slots (partOf iv e.id))).file.any (fun f => f.lsn ≥ l) then db
      else
        db.set (partOf iv e.id)
          { db.slots (partOf iv e.id) with
            part := some
              { partOr (db.slots (partOf iv e.id)) with
                act := ({ (partOr (db.slots (partOf iv e.id))).act with
                  tbl := tset (partOr (db.slots (partOf iv e.id))).act.tbl e }).follow l } } := rfl
  rw [e1]
  split
  · exact ⟨rfl, rfl, rfl, rfl, id⟩
  · exact ⟨rfl, rfl, rfl, rfl, fun h => known_set h _ _⟩

theorem replays_slots (iv l q : Nat) : ∀ (es : List Event) (db : Db),
    (es.foldl (replayEvent iv l) db).slots q = (es.map fun e => (l, e)).foldl (replayOne iv q) (db.slots q) ∧
    (es.foldl (replayEvent iv l) db).wal = db.wal ∧ (es.foldl (replayEvent iv l) db).cur = db.cur ∧
    (es.foldl (replayEvent iv l) db).lsn = db.lsn ∧ (es.foldl (replayEvent iv l) db).pending = db.pending ∧
    ((∀ p, p ∉ db.known → db.slots p = {}) →
      ∀ p, p ∉ (es.foldl (replayEvent iv l) db).known → (es.foldl (replayEvent iv l) db).slots p = {}) := by
  intro es
  induction es with
  | nil => intro db; exact ⟨rfl, rfl, rfl, rfl, rfl, id⟩
  | cons e es ih =>
    intro db
    rw [List.foldl_cons, List.map_cons, List.foldl_cons, ← replay_slots]
    obtain ⟨h1, h2, h3, h4, h5, h6⟩ := ih (replayEvent iv l db e)
    obtain ⟨g2, g3, g4, g5, g6⟩ := replay_rest iv l db e
    exact ⟨h1, h2.trans g2, h3.trans g3, h4.trans g4, h5.trans g5, fun h => h6 (g6 h)⟩

theorem replayRecs (iv q : Nat) : ∀ (rs : List Rec), OnlyWrites rs → ∀ (db : Db),
    (rs.foldl (replayRec iv) db).slots q = (evs rs).foldl (replayOne iv q) (db.slots q) ∧
    (rs.foldl (replayRec iv) db).wal = db.wal ∧ (rs.foldl (replayRec iv) db).cur = db.cur ∧
    (rs.foldl (replayRec iv) db).pending = db.pending ∧
    (∀ r ∈ rs, r.lsn ≤ (rs.foldl (replayRec iv) db).lsn) ∧ db.lsn ≤ (rs.foldl (replayRec iv) db).lsn ∧
    (∀ b, db.lsn ≤ b → (∀ r ∈ rs, r.lsn ≤ b) → (rs.foldl (replayRec iv) db).lsn ≤ b) ∧
    ((∀ p, p ∉ db.known → db.slots p = {}) →
      ∀ p, p ∉ (rs.foldl (replayRec iv) db).known → (rs.foldl (replayRec iv) db).slots p = {}) := by
  intro rs
  induction rs with
  | nil => intro _ db; exact ⟨rfl, rfl, rfl, rfl, by simp, Nat.le_refl _, fun _ h _ => h, id⟩
  | cons r rs ih =>
    intro hw db
    obtain ⟨l, m, es, rfl, _, _⟩ := hw r (by simp)
    rw [List.foldl_cons]
    obtain ⟨h1, h2, h3, h4, h5, h6, h7, h8⟩ := ih (fun r hr => hw r (by simp [hr])) (replayRec iv db (.write l m es))
    obtain ⟨g1, g2, g3, g4, g5, g6⟩ := replays_slots iv l q es db
    have e1 : replayRec iv db (.write l m es) =
        { es.foldl (replayEvent iv l) db with
          lsn := if l > (es.foldl (replayEvent iv l) db).lsn then l else (es.foldl (replayEvent iv l) db).lsn } := rfl
    have hl : (replayRec iv db (.write l m es)).lsn = if l > db.lsn then l else db.lsn := by
      rw [e1]
      simp only
      rw [g4]
    have e2 : evs (.write l m es :: rs) = (es.map fun e => (l, e)) ++ evs rs := by simp [evs]
    refine ⟨?_, ?_, ?_, ?_, ?_, ?_, ?_, ?_⟩
    · rw [h1, e2, List.foldl_append, e1]
      rw [← g1]
    · rw [h2, e1]
      exact g2
    · rw [h3, e1]
      exact g3
    · rw [h4, e1]
      exact g5
    · intro r hr
      rcases List.mem_cons.1 hr with rfl | hr
      · show l ≤ _
        rw [hl] at h6
        split at h6 <;> omega
      · exact h5 r hr
    · rw [hl] at h6
      split at h6 <;> omega
    · intro b hb hr
      apply h7 b _ (fun r' hr' => hr r' (by simp [hr']))
      have : l ≤ b := hr (.write l m es) (by simp)
      rw [hl]
      split <;> omega
    · intro hk
      apply h8
      rw [e1]
      exact g6 hk

theorem replayFrom_eq (iv : Nat) : ∀ (n i : Nat) (db : Db), db.wal.length ≤ i + n →
    (∀ f ∈ db.wal, OnlyWrites f.2) →
    replayFrom iv n i db = ((db.wal.drop i).flatMap (·.2)).foldl (replayRec iv) db := by
  intro n
  induction n with
  | zero =>
    intro i db hl _
    rw [List.drop_eq_nil_of_le (by omega)]
    rfl
  | succ n ih =>
    intro i db hl hw
    unfold replayFrom
    cases hi : db.wal[i]? with
    | none =>
      rw [List.drop_eq_nil_of_le (List.getElem?_eq_none_iff.1 hi)]
      rfl
    | some f =>
      obtain ⟨hlt, hf⟩ := List.getElem?_eq_some_iff.1 hi
      have hfw := hw f (by rw [← hf]; exact List.getElem_mem hlt)
      obtain ⟨_, h2, _⟩ := replayRecs iv 0 f.2 hfw db
      simp only
      rw [ih (i + 1) _ (by rw [h2]; omega) (by rw [h2]; exact hw), h2, List.drop_eq_getElem_cons hlt, hf,
        List.flatMap_cons, List.foldl_append]

/-- What replaying leaves in a partition. -/
theorem replay_spec (iv q b : Nat) (d : Option PFile) (s0 : Slot) (h0 : partOr s0 = { file := d }) :
    ∀ (n : Nat) (xs : List (Nat × Event)), xs.length = n → (∀ y ∈ xs, 1 ≤ y.1 ∧ y.1 ≤ b) → ∃ A : Mem,
      partOr (xs.foldl (replayOne iv q) s0) = { file := d, act := A } ∧
      (xs.foldl (replayOne iv q) s0).files = s0.files ∧
      (∀ k : Key, partOf iv k.1 = q → tget A.tbl k = vl (fun l => decide (lsnOf d < l)) xs k) ∧
      (∀ y ∈ xs, partOf iv y.2.id = q → lsnOf d < y.1 → A.lsnMin ≤ y.1 ∧ y.1 ≤ A.lsnMax) ∧ A.lsnMax ≤ b ∧
      (A.lsnMin = 18446744073709551615 ∨ A.tbl ≠ []) := by
  intro n
  induction n with
  | zero =>
    intro xs hl _
    rw [List.length_eq_zero_iff] at hl
    subst hl
    exact ⟨{}, h0, rfl, fun k _ => rfl, by simp, Nat.zero_le _, .inl rfl⟩
  | succ n ih =>
    intro xs hl hb
    obtain ⟨ys, y, rfl⟩ : ∃ ys y, xs = ys ++ [y] := by
      rcases List.eq_nil_or_concat xs with rfl | ⟨ys, y, rfl⟩
      · simp at hl
      · exact ⟨ys, y, List.concat_eq_append⟩
    obtain ⟨A, h1, h2, h3, h4, h5, h6⟩ := ih ys (by simpa using hl) fun z hz => hb z (by simp [hz])
    obtain ⟨hy1, hyb⟩ := hb y (by simp)
    rw [List.foldl_append]
    generalize ys.foldl (replayOne iv q) s0 = s at h1 h2
    show ∃ A : Mem, partOr (replayOne iv q s y) = _ ∧ (replayOne iv q s y).files = _ ∧ _
    obtain ⟨l, e⟩ := y
    by_cases hq : partOf iv e.id = q
    · have hcond : (partOr s).file.any (fun f => f.lsn ≥ l) = decide (l ≤ lsnOf d) := by
        rw [h1]
        cases d with
        | none =>
          have : ¬ l ≤ 0 := by
            simp only at hy1
            omega
          simp [lsnOf, this]
        | some f => rfl
      by_cases hc : l ≤ lsnOf d
      · have e1 : replayOne iv q s (l, e) = s := by
          unfold replayOne
          rw [if_pos hq, if_pos]
          rw [hcond]
          simpa using hc
        rw [e1]
        refine ⟨A, h1, h2, ?_, ?_, h5, h6⟩
        · intro k hk
          rw [vl_append, vl_single, if_neg, Option.none_or]
          · exact h3 k hk
          · simp only [decide_eq_true_eq]
            omega
        · intro z hz hzq hzl
          rcases List.mem_append.1 hz with hz | hz
          · exact h4 z hz hzq hzl
          · simp only [List.mem_singleton] at hz
            subst hz
            simp only at hzl
            omega
      · have e1 : replayOne iv q s (l, e) =
            { s with
              part := some
                { partOr s with act := ({ (partOr s).act with tbl := tset (partOr s).act.tbl e }).follow l } } := by
          unfold replayOne
          rw [if_pos hq, if_neg]
          rw [hcond]
          simpa using hc
        rw [e1]
        have m1 := Mem.follow_min { A with tbl := tset A.tbl e } l
        have m2 := Mem.follow_max { A with tbl := tset A.tbl e } l
        simp only at m1 m2
        refine ⟨({ A with tbl := tset A.tbl e }).follow l, ?_, h2, ?_, ?_, ?_, .inr (by simp [Mem.follow_tbl, tset])⟩
        · show { partOr s with act := ({ (partOr s).act with tbl := tset (partOr s).act.tbl e }).follow l } = _
          rw [h1]
        · intro k hk
          rw [Mem.follow_tbl, vl_append, vl_single, tget_tset, ← h3 k hk]
          have : lsnOf d < l := by omega
          by_cases hek : e.pair = k
          · simp [hek, this]
          · simp [hek]
        · intro z hz hzq hzl
          rcases List.mem_append.1 hz with hz | hz
          · have := h4 z hz hzq hzl
            omega
          · simp only [List.mem_singleton] at hz
            subst hz
            simp only
            omega
        · simp only at hyb
          omega
    · have e1 : replayOne iv q s (l, e) = s := by unfold replayOne; rw [if_neg hq]
      rw [e1]
      refine ⟨A, h1, h2, ?_, ?_, h5, h6⟩
      · intro k hk
        rw [vl_append, vl_single, if_neg, Option.none_or]
        · exact h3 k hk
        · rintro ⟨_, rfl⟩
          exact hq hk
      · intro z hz hzq hzl
        rcases List.mem_append.1 hz with hz | hz
        · exact h4 z hz hzq hzl
        · simp only [List.mem_singleton] at hz
          subst hz
          exact absurd hzq hq

theorem recSlot_part (s : Slot) : partOr (recSlot s) = { file := dur s.files } := by
  unfold recSlot
  cases dur s.files <;> rfl

theorem recSlot_files (s : Slot) : (recSlot s).files = { id_ := dur s.files } := by
  unfold recSlot
  cases dur s.files <;> rfl

theorem dur_id (d : Option PFile) : dur { id_ := d } = d := by
  cases d <;> rfl

theorem restart_inv0 {iv n : Nat} {db : Db} {H : List Rec} (h : Inv0 iv db H n) :
    ∃ db', restart iv db = .ok db' ∧ (∀ b, db.lsn ≤ b → Inv0 iv { db' with lsn := b } H n) ∧
      lastLsn H ≤ db'.lsn ∧ db'.lsn ≤ db.lsn ∧
      ∀ p x, (db'.slots p).part = some x → x.prev = {} ∧ x.phase = .idle := by
  obtain ⟨db1, h1, h2, h3, h4, h5, h6, h7⟩ := recoverAll_spec db (fun p => (h.slots p).disk) db.known
  have hslot : ∀ q, db1.slots q = recSlot (db.slots q) := by
    intro q
    rw [h2]
    split
    · rfl
    · rename_i hq
      rw [h.known q hq]
      rfl
  have hknown : ∀ p, p ∉ db1.known → db1.slots p = {} := by
    intro p hp
    rw [hslot, h.known p (h3 p hp)]
    rfl
  obtain ⟨w, rs, hw⟩ := h.cur
  have hgl : db1.wal.getLast? = some (db.cur, rs) := by
    rw [h4, hw, List.getLast?_append]
    rfl
  have hws : ∀ f ∈ db1.wal, OnlyWrites f.2 := by
    intro f hf r hr
    apply h.writes r
    have : r ∈ H.drop n := by
      rw [← h.wal, ← h4]
      exact List.mem_flatMap.2 ⟨f, hf, hr⟩
    exact List.mem_of_mem_drop this
  have e1 : restart iv db = .ok (replayFrom iv db1.wal.length 0 { db1 with cur := db.cur }) := by
    unfold restart
    rw [h1, Res.bind_ok]
    simp only [hgl]
  have e2 : replayFrom iv db1.wal.length 0 { db1 with cur := db.cur } =
      (H.drop n).foldl (replayRec iv) { db1 with cur := db.cur } := by
    rw [replayFrom_eq iv _ 0 { db1 with cur := db.cur } (by simp) hws]
    simp only [List.drop_zero]
    rw [h4, h.wal]
  rw [e2] at e1
  have hwd : OnlyWrites (H.drop n) := fun r hr => h.writes r (List.mem_of_mem_drop hr)
  have hr := fun q => replayRecs iv q (H.drop n) hwd { db1 with cur := db.cur }
  generalize (H.drop n).foldl (replayRec iv) { db1 with cur := db.cur } = db2 at e1 hr
  obtain ⟨_, r2, r3, r4, r5, r6, r7, r8⟩ := hr 0
  simp only at r2 r3 r4 r6 r7 r8
  have hdb : ∀ p, lsnOf (dur (db.slots p).files) ≤ db.lsn :=
    fun p => Nat.le_trans (h.slots p).durB (h.slots p).part.fb
  have hlsn : lastLsn H ≤ db2.lsn ∧ db2.lsn ≤ db.lsn := by
    refine And.symm ⟨?_, ?_⟩
    · apply r7
      · exact h7 _ hdb
      · intro r hr
        exact Nat.le_trans (le_last h.asc (List.mem_of_mem_drop hr)) h.last
    · unfold lastLsn
      rcases List.eq_nil_or_concat H with hH | ⟨H0, r, hH⟩
      · rw [hH]
        exact Nat.zero_le _
      · rw [List.concat_eq_append] at hH
        rw [hH, List.getLast?_append]
        show r.lsn ≤ _
        have hrH : r ∈ H := by rw [hH]; simp
        rw [← List.take_append_drop n H] at hrH
        rcases List.mem_append.1 hrH with hr | hr
        · obtain ⟨l, m, es, rfl, hes, _⟩ := h.writes r (List.mem_of_mem_take hr)
          obtain ⟨e, he⟩ := List.exists_mem_of_ne_nil es hes
          have hc := h.cover (l, e) (List.mem_flatMap.2 ⟨_, hr, List.mem_map.2 ⟨e, he, rfl⟩⟩)
          simp only at hc
          show l ≤ _
          by_cases hk : partOf iv e.id ∈ db.known
          · have := h6 _ hk
            omega
          · rw [h.known _ hk] at hc
            have : lsnOf (dur ({} : Slot).files) = 0 := rfl
            omega
        · exact r5 r hr
  have hpr : pend db2 = fun _ => False := by
    funext l
    unfold pend
    rw [r4, h5]
    simp
  suffices h : (∀ b, db.lsn ≤ b → Inv0 iv { db2 with lsn := b } H n) ∧
      ∀ p x, (db2.slots p).part = some x → x.prev = {} ∧ x.phase = .idle from
    ⟨db2, e1, h.1, hlsn.1, hlsn.2, h.2⟩
  have hsplit : evs H = evs (H.take n) ++ evs (H.drop n) := by rw [← evs_append, List.take_append_drop]
  have hb : ∀ y ∈ evs (H.drop n), 1 ≤ y.1 ∧ y.1 ≤ db.lsn := by
    intro y hy
    have hyH : y ∈ evs H := by rw [hsplit]; simp [hy]
    exact ⟨evs_pos h.writes hyH, Nat.le_trans (evs_le h.asc hyH) h.last⟩
  have hspec : ∀ q, ∃ A : Mem, partOr (db2.slots q) = { file := dur (db.slots q).files, act := A } ∧
      (db2.slots q).files = { id_ := dur (db.slots q).files } ∧
      (∀ k : Key, partOf iv k.1 = q →
        tget A.tbl k = vl (fun l => decide (lsnOf (dur (db.slots q).files) < l)) (evs (H.drop n)) k) ∧
      (∀ y ∈ evs (H.drop n), partOf iv y.2.id = q → lsnOf (dur (db.slots q).files) < y.1 →
        A.lsnMin ≤ y.1 ∧ y.1 ≤ A.lsnMax) ∧ A.lsnMax ≤ db.lsn ∧
      (A.lsnMin = 18446744073709551615 ∨ A.tbl ≠ []) := by
    intro q
    have g1 := (hr q).1
    simp only at g1
    rw [hslot q] at g1
    rw [g1]
    obtain ⟨A, a1, a2, a3, a4, a5, a6⟩ :=
      replay_spec iv q db.lsn (dur (db.slots q).files) (recSlot (db.slots q)) (recSlot_part _) _ (evs (H.drop n)) rfl hb
    refine ⟨A, a1, ?_, a3, a4, a5, a6⟩
    rw [a2]
    exact recSlot_files _
  refine ⟨?_, fun p x hx => ?_⟩
  rotate_left
  · obtain ⟨A, a1, _⟩ := hspec p
    rw [partOr_some hx] at a1
    rw [a1]
    exact ⟨rfl, rfl⟩
  intro b hlb
  constructor
  · exact h.writes
  · exact h.asc
  · exact Nat.le_trans h.last hlb
  · exact h.nle
  · dsimp only
    rw [r2, h4]
    exact h.wal
  · dsimp only
    rw [r2, h4]
    exact h.files
  · dsimp only
    rw [r2, h4]
    exact h.ids
  · refine ⟨w, rs, ?_⟩
    dsimp only
    rw [r2, h4, r3]
    exact hw
  · have := h.curLe
    dsimp only
    rw [r3]
    omega
  · intro q
    have hpr' : pend { db2 with lsn := b } = fun _ => False := hpr
    rw [hpr']
    dsimp only
    obtain ⟨A, a1, a2, a3, a4, a5, a6⟩ := hspec q
    have htop : top { file := dur (db.slots q).files, act := A } = lsnOf (dur (db.slots q).files) :=
      Nat.max_eq_left (Nat.zero_le _)
    have hold : ∀ y ∈ evs (H.take n), partOf iv y.2.id = q → y.1 ≤ lsnOf (dur (db.slots q).files) := by
      intro y hy hyq
      have := h.cover y hy
      rw [hyq] at this
      exact this
    refine ⟨?_, ?_, ?_, ?_⟩
    · rw [a1]
      refine ⟨(h.slots q).durOK, ?_, ?_, ?_, ?_, Nat.le_trans (hdb q) hlb, Nat.zero_le _, Nat.le_trans a5 hlb, fun _ _ => rfl, ?_, ?_, fun _ _ _ hf => hf.elim, a6⟩
      · intro k hk
        show none = _
        rw [vl_none]
        intro y _ _
        rw [htop]
        by_cases hy : lsnOf (dur (db.slots q).files) < y.1
        · have : ¬ y.1 ≤ lsnOf (dur (db.slots q).files) := by omega
          simp [this]
        · simp [hy]
      · intro k hk
        show tget A.tbl k = _
        rw [a3 k hk, htop, hsplit, vl_append,
          vl_none (P := fun l => decide (lsnOf (dur (db.slots q).files) < l)) (xs := evs (H.take n)), Option.or_none]
        intro y hy hyk
        have := hold y hy (by rw [← hk, ← hyk]; rfl)
        simp only [decide_eq_false_iff_not]
        omega
      · intro y hy hyq hlt _
        rw [htop] at hlt
        rw [hsplit] at hy
        rcases List.mem_append.1 hy with hy | hy
        · have := hold y hy hyq
          omega
        · exact a4 y hy hyq hlt
      · intro y hy hyq hlt hle
        rw [htop] at hle
        simp only at hlt
        omega
      · intro f hf
        cases hf
      · rintro f (hf | hf | hf) <;> cases hf
    · rw [a1, a2]
      exact ⟨rfl, rfl⟩
    · rw [a2, dur_id]
      exact (h.slots q).durOK
    · rw [a1, a2, dur_id]
      exact Nat.le_refl _
  · intro y hy
    obtain ⟨A, _, a2, _⟩ := hspec (partOf iv y.2.id)
    dsimp only
    rw [a2, dur_id]
    exact h.cover y hy
  · apply r8
    exact hknown
  · intro l es he
    dsimp only at he
    rw [r4, h5] at he
    cases he

theorem bump_inv0 {iv n b : Nat} {db : Db} {H : List Rec} (h : Inv0 iv db H n) (hb : db.lsn ≤ b) :
    Inv0 iv { db with lsn := b } H n :=
  ⟨h.writes, h.asc, Nat.le_trans h.last hb, h.nle, h.wal, h.files, h.ids, h.cur,
    Nat.le_trans h.curLe (Nat.add_le_add_right hb 1),
    fun p =>
      let s := h.slots p
      let x := s.part
      ⟨⟨x.file, x.prev, x.act, x.range, x.prevMin, Nat.le_trans x.fb hb, Nat.le_trans x.pb hb, Nat.le_trans x.ab hb,
        x.empty, x.merged, x.after, x.held, x.mini⟩, s.disk, s.durOK, s.durB⟩,
    h.cover, h.known, h.pending⟩

/-! The same where only batches are numbered. -/

theorem view_content {iv n : Nat} {db : Db} {H : List Rec} (h : Inv iv db H n) (k : Key) :
    view iv db k = content iv H k := view_content0 h.toInv0 k

theorem onPart_rest (db : Db) (p : Nat) (f : Part → Files → Option (Part × Files)) :
    (onPart db p f).lsn = db.lsn ∧ (onPart db p f).wal = db.wal ∧ (onPart db p f).cur = db.cur ∧
      (onPart db p f).pending = db.pending := by
  unfold onPart
  dsimp only
  split
  · exact ⟨rfl, rfl, rfl, rfl⟩
  · split <;> exact ⟨rfl, rfl, rfl, rfl⟩

theorem begin_inv {iv n : Nat} {db : Db} {H : List Rec} (h : Inv iv db H n) (p : Nat) : Inv iv (begin_ iv db p) H n := by
  refine ⟨begin_inv0 h.toInv0 p, ?_⟩
  unfold begin_
  split
  · exact h.eq
  · exact (onPart_rest db p _).1.trans h.eq

theorem merge_inv {iv n : Nat} {db : Db} {H : List Rec} (h : Inv iv db H n) (p : Nat) : Inv iv (merge db p) H n :=
  ⟨merge_inv0 h.toInv0 p, (onPart_rest db p _).1.trans h.eq⟩

theorem apply_inv {iv n : Nat} {db : Db} {H : List Rec} (h : Inv iv db H n) (p : Nat) : Inv iv (apply_ iv db p) H n := by
  refine ⟨apply_inv0 h.toInv0 p, ?_⟩
  unfold apply_
  split
  · exact h.eq
  · exact (onPart_rest db p _).1.trans h.eq

theorem complete_inv {iv n : Nat} {db : Db} {H : List Rec} (h : Inv iv db H n) (p : Nat) : Inv iv (complete db p) H n :=
  ⟨complete_inv0 h.toInv0 p, (onPart_rest db p _).1.trans h.eq⟩

theorem delete_inv {iv n : Nat} {db : Db} {H : List Rec} (h : Inv iv db H n) (p : Nat) : Inv iv (delete db p) H n :=
  ⟨delete_inv0 h.toInv0 p, (onPart_rest db p _).1.trans h.eq⟩

theorem finish_inv {iv n : Nat} {db : Db} {H : List Rec} (h : Inv iv db H n) (p : Nat) : Inv iv (finish db p) H n :=
  ⟨finish_inv0 h.toInv0 p, (onPart_rest db p _).1.trans h.eq⟩

theorem rotate_inv {iv n : Nat} {db : Db} {H : List Rec} (h : Inv iv db H n) :
    ∃ db', rotate db = .ok db' ∧ Inv iv db' H n ∧ db'.lsn = db.lsn := by
  obtain ⟨db', h1, h2, h3⟩ := rotate_inv0 h.toInv0
  exact ⟨db', h1, ⟨h2, h3.trans h.eq⟩, h3⟩

theorem gc_inv {iv n : Nat} {db : Db} {H : List Rec} (h : Inv iv db H n) (hp : db.pending = none)
    (ho : ∀ p x, (db.slots p).part = some x → x.phase.open_ = false) : ∃ n', Inv iv (gc db) H n' := by
  obtain ⟨n', h1⟩ := gc_inv0 h.toInv0 hp ho
  exact ⟨n', h1, h.eq⟩

theorem log_inv {iv n : Nat} {db : Db} {H : List Rec} (h : Inv iv db H n) (hp : db.pending = none) {es : List Event}
    (hes : es ≠ []) : Inv iv (log iv db es) (H ++ [.write (db.lsn + 1) es.length es]) n := by
  refine ⟨log_inv0 h.toInv0 hp hes, ?_⟩
  rw [lastLsn_append]
  unfold log
  rw [hp]
  show (es.foldl (putEvent iv) db).lsn + 1 = db.lsn + 1
  rw [(puts_rest iv es db).2.2.1]

theorem commit_inv {iv n : Nat} {db : Db} {H : List Rec} (h : Inv iv db H n) : Inv iv (commit iv db) H n := by
  refine ⟨commit_inv0 h.toInv0, ?_⟩
  unfold commit
  split
  · exact h.eq
  · exact (follows_rest iv _ _ db).2.2.1.trans h.eq

theorem restart_inv {iv n : Nat} {db : Db} {H : List Rec} (h : Inv iv db H n) :
    ∃ db', restart iv db = .ok db' ∧ Inv iv db' H n ∧ db'.lsn = db.lsn ∧
      ∀ p x, (db'.slots p).part = some x → x.prev = {} ∧ x.phase = .idle := by
  obtain ⟨db', h1, h2, h3, h4, h5⟩ := restart_inv0 h.toInv0
  have e : db'.lsn = db.lsn := by
    have := h.eq
    omega
  exact ⟨db', h1, ⟨h2 db'.lsn (by omega), e.trans h.eq⟩, e, h5⟩

/-! Histories. -/

theorem init_inv (iv : Nat) : Inv iv init [] 0 := by
  refine ⟨?_, rfl⟩
  constructor
  · intro r hr; simp at hr
  · exact List.Pairwise.nil
  · exact Nat.le_refl _
  · exact Nat.le_refl _
  · rfl
  · exact List.pairwise_singleton _ _
  · intro f hf r hr
    simp only [init, List.mem_singleton] at hf
    subst hf
    simp at hr
  · exact ⟨[], [], rfl⟩
  · exact Nat.le_refl _
  · intro p
    refine ⟨⟨fun k _ => rfl, fun k _ => rfl, fun k _ => rfl, ?_, ?_, Nat.le_refl _, Nat.le_refl _, Nat.le_refl _,
      fun _ _ => rfl, ?_, ?_, ?_, .inl rfl⟩, ⟨rfl, rfl⟩, fun k _ => rfl, Nat.le_refl _⟩
    · intro y hy; simp [evs] at hy
    · intro y hy; simp [evs] at hy
    · intro f hf; cases hf
    · rintro f (hf | hf | hf) <;> cases hf
    · intro y hy; simp [evs] at hy
  · intro y hy; simp [evs] at hy
  · intro p _; rfl
  · intro l es he; cases he

/-- What a step adds to the history. -/
def newRecs (db db' : Db) : Op → List Rec
  | .log es => if db.pending.isNone then [.write (db.lsn + 1) es.length es] else []
  | .dropRef p => if db'.lsn = db.lsn then [] else [.drop (db.lsn + 1) p]
  | _ => []

theorem step_inv {iv n : Nat} {db : Db} {H : List Rec} (h : Inv iv db H n) {op : Op} (ha : Allowed db op) :
    ∃ db', step iv db op = .ok db' ∧ ∃ n', Inv iv db' (H ++ newRecs db db' op) n' := by
  cases op with
  | log es =>
    refine ⟨_, rfl, n, ?_⟩
    cases hp : db.pending with
    | none =>
      have : newRecs db (log iv db es) (.log es) = [.write (db.lsn + 1) es.length es] := by
        unfold newRecs; rw [hp]; rfl
      rw [this]
      exact log_inv h hp ha.1
    | some q =>
      have : newRecs db (log iv db es) (.log es) = [] := by
        unfold newRecs; rw [hp]; rfl
      rw [this, List.append_nil]
      have e : log iv db es = db := by unfold log; rw [hp]
      rw [e]
      exact h
  | commit => exact ⟨_, rfl, n, by simpa [newRecs] using commit_inv h⟩
  | rotate =>
    obtain ⟨db', h1, h2, _⟩ := rotate_inv h
    exact ⟨db', h1, n, by simpa [newRecs] using h2⟩
  | gc =>
    obtain ⟨n', h'⟩ := gc_inv h ha.1 ha.2
    exact ⟨_, rfl, n', by simpa [newRecs] using h'⟩
  | begin_ p => exact ⟨_, rfl, n, by simpa [newRecs] using begin_inv h p⟩
  | merge p => exact ⟨_, rfl, n, by simpa [newRecs] using merge_inv h p⟩
  | fail p => exact ha.elim
  | apply_ p => exact ⟨_, rfl, n, by simpa [newRecs] using apply_inv h p⟩
  | complete p => exact ⟨_, rfl, n, by simpa [newRecs] using complete_inv h p⟩
  | delete p => exact ⟨_, rfl, n, by simpa [newRecs] using delete_inv h p⟩
  | finish p => exact ⟨_, rfl, n, by simpa [newRecs] using finish_inv h p⟩
  | dropFile p => exact ha.elim
  | dropRef p => exact ha.elim
  | crash =>
    obtain ⟨db', h1, h2, _⟩ := restart_inv h
    exact ⟨db', h1, n, by simpa [newRecs] using h2⟩

theorem run_inv {iv : Nat} : ∀ (ops : List Op) {n : Nat} {db : Db} {H : List Rec}, Inv iv db H n → Safe iv db ops →
    ∃ db' H' n', runH iv db H ops = .ok (db', H') ∧ Inv iv db' H' n' := by
  intro ops
  induction ops with
  | nil => intro n db H h _; exact ⟨db, H, n, rfl, h⟩
  | cons op ops ih =>
    intro n db H h hs
    obtain ⟨db', h1, n', h2⟩ := step_inv h hs.1
    obtain ⟨db2, H2, n2, g1, g2⟩ := ih h2 (hs.2 db' h1)
    refine ⟨db2, H2, n2, ?_, g2⟩
    unfold runH
    rw [h1, Res.bind_ok]
    exact g1

end Verif.Dur
