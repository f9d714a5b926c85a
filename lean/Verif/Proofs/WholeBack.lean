import Verif.Proofs.WholeRel
import Verif.Proofs.C09

/-! Helper lemmas: batches of the whole database that fail. -/
namespace Verif.Whole
open Rb Spec Io Mapping Cursor
open Dur (partOf tget tset Key partOr)
open C84 (Limits)

theorem ascending_ext {L L' : List Event} (h : Ascending L) (h' : Ascending L') (he : ∀ e, lookup e L = lookup e L') :
    L = L' := by
  have hsub : ∀ {A B : List Event}, Ascending A → (∀ e, lookup e A = lookup e B) → ∀ x ∈ A, x ∈ B := by
    intro A B hA hAB x hx
    have := C07.lookup_eq_some hA hx (evCmp_refl x)
    rw [hAB] at this
    exact (C07.lookup_some_mem this).1
  have hmem : ∀ x, x ∈ L ↔ x ∈ L' := fun x => ⟨hsub h he x, hsub h' (fun e => (he e).symm) x⟩
  have hn : ∀ {A : List Event}, Ascending A → A.Nodup := by
    intro A hA
    refine List.Pairwise.imp (fun {a b} hab e => ?_) hA
    rw [e, evCmp_refl] at hab
    omega
  have hp : L.Perm L' := (List.perm_ext_iff_of_nodup (hn h) (hn h')).2 hmem
  refine hp.eq_of_pairwise ?_ h h'
  intro a b _ _ hab hba
  rw [evCmp_swap] at hba
  omega

/-- The contents of a table, with room for `n` more. -/
def RoomFor (n : Nat) (a : Dur.Mem) : Prop :=
  ∃ T, Ascending T ∧ T.length + n ≤ 512 ∧ ∀ e : Event, tget a.tbl e.pair = lookup e T

theorem RoomFor.table {n : Nat} {a : Dur.Mem} (h : RoomFor n a) {es : List Event}
    (he : ∀ k : Key, tget a.tbl k = Dur.lastOf es k) : (C07.table es).length + n ≤ 512 := by
  obtain ⟨T, h1, h2, h3⟩ := h
  have : C07.table es = T := by
    refine ascending_ext (C07.table_ascending _) h1 (fun e => ?_)
    rw [C07.lookup_table, lastOf_eq, ← he, h3]
  rw [this]
  exact h2

theorem put_length_le {L : List Event} (h : Ascending L) (e : Event) : (put e L).length ≤ L.length + 1 := by
  rcases ascending_split h e with ⟨A, B, hAB, hA, hB⟩ | ⟨A, y, B, hAB, hA, hy, hB⟩
  · rw [hAB, put_insert hA hB]; simp; omega
  · rw [hAB, put_replace hA hy hB]; simp

theorem lookup_put {L : List Event} (h : Ascending L) (e k : Event) :
    lookup k (put e L) = if e.pair = k.pair then some e else lookup k L := by
  by_cases hk : e.pair = k.pair
  · rw [if_pos hk]
    have := lookup_put_self e L
    refine C07.lookup_eq_some (put_ascending h e) (C07.lookup_some_mem this).1 (evCmp_eq.2 hk)
  · rw [if_neg hk]
    cases hl : lookup k L with
    | some x =>
      obtain ⟨h1, h2⟩ := C07.lookup_some_mem hl
      refine C07.lookup_eq_some (put_ascending h e) ?_ h2
      have hne : evCmp x e ≠ 0 := fun h0 => hk ((evCmp_eq.1 h0).symm.trans (evCmp_eq.1 h2))
      rcases ascending_split h e with ⟨A, B, rfl, hA, hB⟩ | ⟨A, y, B, rfl, hA, hy, hB⟩
      · rw [put_insert hA hB]
        simp only [List.mem_append, List.mem_cons] at h1 ⊢
        rcases h1 with h1 | h1 <;> simp [h1]
      · rw [put_replace hA hy hB]
        simp only [List.mem_append, List.mem_cons] at h1 ⊢
        rcases h1 with h1 | rfl | h1
        · simp [h1]
        · exact absurd hy hne
        · simp [h1]
    | none =>
      cases hl' : lookup k (put e L) with
      | none => rfl
      | some x =>
        exfalso
        obtain ⟨h1, h2⟩ := C07.lookup_some_mem hl'
        have hx : x = e ∨ x ∈ L := by
          rcases ascending_split h e with ⟨A, B, rfl, hA, hB⟩ | ⟨A, y, B, rfl, hA, hy, hB⟩
          · rw [put_insert hA hB] at h1
            simp only [List.mem_append, List.mem_cons] at h1 ⊢
            rcases h1 with h1 | h1 | h1 <;> simp [h1]
          · rw [put_replace hA hy hB] at h1
            simp only [List.mem_append, List.mem_cons] at h1 ⊢
            rcases h1 with h1 | h1 | h1 <;> simp [h1]
        rcases hx with rfl | hx
        · exact hk (evCmp_eq.1 h2)
        · have := C07.lookup_eq_some h hx h2
          rw [hl] at this
          cases this

theorem RoomFor.set {n : Nat} {a : Dur.Mem} (h : RoomFor (n + 1) a) (e : Event) :
    RoomFor n { a with tbl := tset a.tbl e } := by
  obtain ⟨T, h1, h2, h3⟩ := h
  refine ⟨put e T, put_ascending h1 e, ?_, fun k => ?_⟩
  · have := put_length_le h1 e
    omega
  · show tget (tset a.tbl e) k.pair = _
    rw [Dur.tget_tset, lookup_put h1, h3]

theorem RoomFor.less {n n' : Nat} {a : Dur.Mem} (h : RoomFor n a) (hn : n' ≤ n) : RoomFor n' a := by
  obtain ⟨T, h1, h2, h3⟩ := h
  exact ⟨T, h1, by omega, h3⟩

theorem lastFull_one {base : Nat} {m : Memtable} {L : List Event} (h : Memtable.Inv base m L) (h1 : m.countPages ≤ 1) :
    Memtable.LastFull m := by
  intro q p r hq
  have := h.cntp
  rw [hq] at this
  simp at this
  omega

/-- The table before a write, from the table after it. -/
theorem MemRel.undo {iv p : Nat} {A B : List Event} {m0 m : Memtable} {a a' : Dur.Mem} {e : Event} (h0 : MemRel iv p A m0 a)
    (h : MemRel iv p B m a') (ha : a' = { a with tbl := tset a.tbl e }) (hr : RoomFor 1 a) (mc : MemCmp)
    (hp : partOf iv e.id = p) (hi : 0 < iv) (hiv : iv < 2147483648) (hk : e.key.length ≤ 255) (hAB : A.Sublist B) :
    (∀ x, tget a.tbl e.pair = some x → ∃ m' o, Memtable.set mc true m x = .ok (m', o) ∧ MemRel iv p B m' a) ∧
    (tget a.tbl e.pair = none → ∃ m', Memtable.unset mc m e = .ok m' ∧ MemRel iv p B m' a) := by
  subst ha
  obtain ⟨es0, g1, g2, g3, g4, g5⟩ := h0
  obtain ⟨es, h1, h2, h3, h4, h5⟩ := h
  have hlen := hr.table g2
  have hasc := C07.table_ascending es0
  have htab : C07.table es = put e (C07.table es0) := by
    refine ascending_ext (C07.table_ascending _) (put_ascending hasc e) (fun k => ?_)
    rw [C07.lookup_table, lastOf_eq, ← h2]
    show tget (tset a.tbl e) k.pair = _
    rw [Dur.tget_tset, lookup_put hasc, C07.lookup_table, lastOf_eq, ← g2]
  have hl := put_length_le hasc e
  have hone : m.countPages ≤ 1 := by
    rcases h1.single with h | h
    · exact h
    · rw [htab] at h
      omega
  have hin := partOf_in hi e.id
  have hg : tget a.tbl e.pair = lookup e (C07.table es0) := by
    rw [C07.lookup_table, lastOf_eq, ← g2]
  have hinv := h1.inv
  rw [htab] at hinv
  have hsub := g5.trans (hAB.filter fun e => partOf iv e.id == p)
  refine ⟨fun x hx => ?_, fun hx => ?_⟩
  · rw [hg] at hx
    obtain ⟨b1, b2⟩ := C09.put_back hasc hx
    have hpair := evCmp_eq.1 b2
    have e1 : x.id = e.id := congrArg (·.1) hpair
    have e2 : x.key = e.key := congrArg (·.2) hpair
    obtain ⟨m', s1, s2, s3, s4, s5⟩ := Memtable.set_spec mc hinv h1.iters (e := x)
      ⟨by omega, by omega, by rw [e2]; exact hk⟩ (.inl hone)
    rw [b1] at s2 s5
    have hone' : m'.countPages ≤ 1 := by
      rcases s5 with s | s | s
      · exact s
      · omega
      · rw [h1.hsp] at s
        omega
    exact ⟨m', _, s1, es0, ⟨s2, s3.2.2.2.2, by rw [s3.1]; exact h1.hsp, by rw [s3.2.1]; exact h1.hss, lastFull_one s2 hone',
      .inl hone'⟩, g2, by rw [s3.2.2.1]; exact h3, by rw [s3.2.2.2.1]; exact h4, hsub⟩
  · rw [hg] at hx
    have b1 := C09.erase_back hasc hx
    obtain ⟨m', s1, s2, s3, s4⟩ := Memtable.unset_spec mc hinv h1.iters (e := e)
      ⟨by omega, by omega, hk⟩ (.inl hone) (by
        intro hn
        have := lookup_put_self e (C07.table es0)
        rw [hn] at this
        cases this)
    rw [b1] at s2
    have hone' : m'.countPages ≤ 1 := Nat.le_trans s4 hone
    exact ⟨m', s1, es0, ⟨s2, s3.2.2.2.2, by rw [s3.1]; exact h1.hsp, by rw [s3.2.1]; exact h1.hss, lastFull_one s2 hone',
      .inl hone'⟩, g2, by rw [s3.2.2.1]; exact h3, by rw [s3.2.2.2.1]; exact h4, hsub⟩

/-- What a batch that failed leaves: the partitions made for it. -/
def touch (iv : Nat) (es : List Event) (q : Nat) (s : Dur.Slot) : Dur.Slot :=
  if es.any (fun e => partOf iv e.id == q) then { s with part := some (partOr s) } else s

theorem partOr_touch (iv : Nat) (es : List Event) (q : Nat) (s : Dur.Slot) : partOr (touch iv es q s) = partOr s := by
  unfold touch
  split <;> rfl

/-- A batch that fails. -/
theorem back_rel {env : Env} {E : List Event} {n : Nat} (hl : Limits env E) : ∀ (es A : List Event) (w : Db)
    (slots : Nat → Dur.Slot), MapRel env E A n w.map w.phase w.disk slots → (∀ e ∈ es, WF e) → (A ++ es).Sublist E →
    (∀ e ∈ es, RoomFor es.length (partOr (slots (partOf env.iv e.id))).act) →
    ∃ m', putBack env w es = .ok { w with map := m' } ∧
      MapRel env E (A ++ es) n m' w.phase w.disk (fun q => touch env.iv es q (slots q)) := by
  intro es
  induction es with
  | nil =>
    intro A w slots h _ _ _
    exact ⟨w.map, rfl, by simpa [touch] using h⟩
  | cons e es ih =>
    intro A w slots h hw hs hr
    have hwe := hw e (by simp)
    have hs1 : (A ++ [e]).Sublist E := List.Sublist.trans ((List.Sublist.refl A).append (by simp)) hs
    have he : e ∈ E := hs1.subset (by simp)
    obtain ⟨m1, h1, h2⟩ := prev_rel h hl hwe hs1
    obtain ⟨m2, h3, h4⟩ := ih (A ++ [e]) { w with map := m1 } _ h2 (fun a ha => hw a (by simp [ha])) (by simpa using hs) (by
      intro a ha
      have hra := hr a (by simp [ha])
      rw [List.length_cons] at hra
      by_cases hp : partOf env.iv e.id = partOf env.iv a.id
      · unfold Dur.putOne
        rw [if_pos hp]
        exact hra.set e
      · unfold Dur.putOne
        rw [if_neg hp]
        exact hra.less (Nat.le_succ _))
    have hput : Dur.putOne env.iv (partOf env.iv e.id) (slots (partOf env.iv e.id)) e =
        { slots (partOf env.iv e.id) with
          part := some { partOr (slots (partOf env.iv e.id)) with
            act := { (partOr (slots (partOf env.iv e.id))).act with tbl := tset (partOr (slots (partOf env.iv e.id))).act.tbl e } } } := by
      unfold Dur.putOne
      rw [if_pos rfl]
    obtain ⟨_, _, _, _, _, _, h5⟩ := h.lock hl (limits_ids hl he).1
    have hsome : (touch env.iv es (partOf env.iv e.id)
        (Dur.putOne env.iv (partOf env.iv e.id) (slots (partOf env.iv e.id)) e)) =
        Dur.putOne env.iv (partOf env.iv e.id) (slots (partOf env.iv e.id)) e := by
      unfold touch
      rw [hput]
      split <;> rfl
    rcases h4.find hl (limits_ids hl he).2 with ⟨_, g2⟩ | ⟨x, y, g1, g2, g3, _, g4, g5⟩
    · rw [hsome, hput] at g2
      cases g2
    · rw [g3] at g4 g5
      rw [hsome, hput] at g4 g5
      have hy := Option.some.inj g4
      obtain ⟨u1, u2⟩ := h5.act.undo g5.act (by rw [← hy]) ((hr e (by simp)).less (by simp)) env.mc rfl hl.interval.1
        hl.interval.2 hwe.2.2.1 (by rw [List.append_assoc]; exact List.sublist_append_left _ _)
      have hup : ∀ t, MemRel env.iv (partOf env.iv e.id) (A ++ [e] ++ es) t (partOr (slots (partOf env.iv e.id))).act →
          MapRel env E (A ++ e :: es) n (setAt m2 x { x.v.val with act := t }) w.phase w.disk
            (fun q => touch env.iv (e :: es) q (slots q)) := by
        intro t ht
        have hA : A ++ [e] ++ es = A ++ e :: es := by simp
        rw [hA] at ht
        have htp : touch env.iv (e :: es) (partOf env.iv e.id) (slots (partOf env.iv e.id)) =
            { slots (partOf env.iv e.id) with part := some (partOr (slots (partOf env.iv e.id))) } := by
          unfold touch
          rw [if_pos (by simp)]
        refine h4.update (by rw [hA]; exact List.Sublist.refl _) (Nat.le_refl _) g2
          (y := partOr (slots (partOf env.iv e.id))) ?_ ?_ ?_
        · rw [g3, htp]
        · rw [g3, htp]
          rw [hA, ← hy] at g5
          exact ⟨ht, g5.prev, g5.file, g5.phase, g5.files⟩
        · intro q hq
          rw [g3] at hq
          refine ⟨?_, rfl, rfl⟩
          have hne : ¬ partOf env.iv e.id = q := fun e' => hq e'.symm
          unfold touch Dur.putOne
          rw [if_neg hne]
          simp [hne]
      unfold putBack
      rw [h1]
      simp only [Res.bind_ok]
      rw [h3]
      simp only [Res.bind_ok]
      unfold undo
      dsimp only
      rw [g1]
      simp only [Res.bind_ok]
      cases hpr : tget (partOr (slots (partOf env.iv e.id))).act.tbl e.pair with
      | some z =>
        obtain ⟨t, o, v1, v2⟩ := u1 z hpr
        refine ⟨_, ?_, hup t v2⟩
        dsimp only
        rw [v1]
        rfl
      | none =>
        obtain ⟨t, v1, v2⟩ := u2 hpr
        refine ⟨_, ?_, hup t v2⟩
        dsimp only
        rw [v1]
        rfl

/-- The room that is left. -/
theorem room_rel {env : Env} {E A : List Event} {n : Nat} {w : Db} {slots : Nat → Dur.Slot}
    (h : MapRel env E A n w.map w.phase w.disk slots) (hl : Limits env E) {es : List Event} (hs : ∀ e ∈ es, e ∈ E)
    (hr : C84.Room w es) : ∀ e ∈ es, RoomFor es.length (partOr (slots (partOf env.iv e.id))).act := by
  intro e he
  rcases h.find hl (limits_ids hl (hs e he)).2 with ⟨_, g2⟩ | ⟨x, y, g1, g2, g3, _, g4, g5⟩
  · rw [g2]
    exact ⟨[], List.Pairwise.nil, by simpa using hr.1, fun _ => rfl⟩
  · have hc := hr.2 e he x g1
    rw [g3] at g4 g5
    obtain ⟨es0, r1, r2, _⟩ := g5.act
    rw [Dur.partOr_some g4]
    refine ⟨C07.table es0, C07.table_ascending _, ?_, fun k => ?_⟩
    · have := r1.inv.cnt
      omega
    · rw [r2, C07.lookup_table, lastOf_eq]

def touched (iv : Nat) (db : Dur.Db) (es : List Event) : Dur.Db :=
  { db with slots := fun q => touch iv es q (db.slots q), known := db.known ++ es.map fun e => partOf iv e.id }

/-- The model of tables as maps does not see a batch that failed. -/
theorem touch_inv {iv n : Nat} {db : Dur.Db} {H : List Wal.Rec} (h : Dur.Inv iv db H n) (es : List Event) :
    Dur.Inv iv (touched iv db es) H n := by
  refine ⟨⟨h.writes, h.asc, h.last, h.nle, h.wal, h.files, h.ids, h.cur, h.curLe, ?_, ?_, ?_, h.pending⟩, h.eq⟩
  · intro p
    have hf : (touch iv es p (db.slots p)).files = (db.slots p).files := by
      unfold touch
      split <;> rfl
    obtain ⟨s1, s2, s3, s4⟩ := h.slots p
    refine ⟨?_, ?_, ?_, ?_⟩ <;> dsimp only [touched]
    · rw [partOr_touch]
      exact s1
    · rw [partOr_touch, hf]
      exact s2
    · rw [hf]
      exact s3
    · rw [partOr_touch, hf]
      exact s4
  · intro y hy
    have hf : (touch iv es (partOf iv y.2.id) (db.slots (partOf iv y.2.id))).files = (db.slots (partOf iv y.2.id)).files := by
      unfold touch
      split <;> rfl
    dsimp only [touched]
    rw [hf]
    exact h.cover y hy
  · intro p hp
    simp only [touched, List.mem_append, List.mem_map, not_or, not_exists, not_and] at hp
    dsimp only [touched]
    unfold touch
    rw [if_neg, h.known p hp.1]
    intro ha
    obtain ⟨e, he, e'⟩ := List.any_eq_true.1 ha
    exact hp.2 e he (by simpa using e')

end Verif.Whole
