import Verif.Proofs.C29

/-! Helper lemmas for C29: partitions are not empty. -/
namespace Verif.C29
open Dur Serial
open Wal (Rec)

def Solid (t : Table) : Prop := t ≠ [] ∧ ∀ e ∈ t, e.isDelete = false

def NoDel (e : Event) : Prop := e.isDelete = false

/-- A partition with at least one event where the next refresh or restart finds
it. -/
structure Full1 (s : Slot) : Prop where
  file : ∀ x f, s.part = some x → x.file = some f → Solid f.tbl
  act : ∀ x, s.part = some x → ∀ e ∈ x.act.tbl, e.isDelete = false
  prev : ∀ x, s.part = some x → ∀ e ∈ x.prev.tbl, e.isDelete = false
  phase : ∀ x f, s.part = some x → Phase.file? x.phase = some f → Solid f.tbl
  idle : ∀ x, s.part = some x → x.phase = .idle → x.prev.tbl = [] ∧ (x.act.tbl ≠ [] ∨ x.file ≠ none)
  after : ∀ x f, s.part = some x → (x.phase = .applied f ∨ x.phase = .completed f ∨ x.phase = .deleted f) → x.prev.tbl = [] ∧ x.file ≠ none
  begun : ∀ x, s.part = some x → x.phase = .begun → x.prev.tbl ≠ [] ∨ x.file ≠ none
  id_ : ∀ f, s.files.id_ = some f → Solid f.tbl
  complete : ∀ f, s.files.complete = some f → Solid f.tbl

theorem solid_merge {m t : Table} (hm : ∀ e ∈ m, e.isDelete = false) (ht : ∀ e ∈ t, e.isDelete = false) (h : m ++ t ≠ []) : Solid (mergeTables m t) := by
  unfold mergeTables
  refine ⟨?_, ?_⟩
  · have hall : ∀ e ∈ m ++ t, e.isDelete = false := by
      intro e he
      rcases List.mem_append.1 he with h | h
      · exact hm e h
      · exact ht e h
    generalize m ++ t = u at h hall
    cases u with
    | nil => exact (h rfl).elim
    | cons e u =>
      intro hn
      have := List.filter_eq_nil_iff.1 hn e (List.mem_cons_self ..)
      simp [tget, hall e (List.mem_cons_self ..)] at this
  · intro e he
    have := (List.mem_filter.1 he).2
    simp at this
    exact this.2

theorem solid_mergeFile {x : Part} (hf : ∀ f, x.file = some f → Solid f.tbl) (hp : ∀ e ∈ x.prev.tbl, e.isDelete = false)
    (h : x.prev.tbl ≠ [] ∨ x.file ≠ none) : Solid (mergeFile x).tbl := by
  unfold mergeFile
  cases hx : x.file with
  | none =>
    refine solid_merge hp (fun e he => (by cases he)) ?_
    rw [hx] at h
    rcases h with h | h
    · simpa using h
    · exact (h rfl).elim
  | some f =>
    have := hf f hx
    refine solid_merge hp this.2 ?_
    intro hn
    exact this.1 (List.append_eq_nil_iff.1 hn).2

theorem full_closed (iv : Nat) : Closed iv false NoDel (fun _ => Full1) := by
  constructor
  · intro p
    constructor <;> intros <;> contradiction
  · rintro p ⟨pt, fs⟩ e h he _
    have hset : ∀ t : Table, (∀ x ∈ t, x.isDelete = false) → ∀ x ∈ tset t e, x.isDelete = false := by
      intro t ht x hx
      rcases mem_tset hx with rfl | hx
      · exact he
      · exact ht x hx
    have hne : ∀ t : Table, tset t e ≠ [] := fun t h => by cases h
    cases pt with
    | none =>
      constructor
      · intro x f hx hf; cases hx; cases hf
      · intro x hx; cases hx; exact hset [] (fun x hx => by cases hx)
      · intro x hx y hy; cases hx; cases hy
      · intro x f hx hf; cases hx; cases hf
      · intro x hx hi; cases hx; exact ⟨rfl, .inl (hne _)⟩
      · intro x f hx hf; cases hx; rcases hf with h | h | h <;> cases h
      · intro x hx hf; cases hx; cases hf
      · exact h.id_
      · exact h.complete
    | some y =>
      constructor
      · intro x f hx hf; cases hx; exact h.file y f rfl hf
      · intro x hx; cases hx; exact hset _ (h.act y rfl)
      · intro x hx; cases hx; exact h.prev y rfl
      · intro x f hx hf; cases hx; exact h.phase y f rfl hf
      · intro x hx hi; cases hx; exact ⟨(h.idle y rfl hi).1, .inl (hne _)⟩
      · intro x f hx hf; cases hx; exact h.after y f rfl hf
      · intro x hx hf; cases hx; exact h.begun y rfl hf
      · exact h.id_
      · exact h.complete
  · intro p x fs l h
    constructor
    · intro z f hz hf; cases hz; exact h.file x f rfl hf
    · intro z hz; cases hz; exact h.act x rfl
    · intro z hz; cases hz; exact h.prev x rfl
    · intro z f hz hf; cases hz; exact h.phase x f rfl hf
    · intro z hz hi; cases hz; exact h.idle x rfl hi
    · intro z f hz hf; cases hz; exact h.after x f rfl hf
    · intro z hz hf; cases hz; exact h.begun x rfl hf
    · exact h.id_
    · exact h.complete
  · intro p x fs h hi
    constructor
    · intro z f hz hf; cases hz; exact h.file x f rfl hf
    · intro z hz; cases hz; exact h.prev x rfl
    · intro z hz; cases hz; exact h.act x rfl
    · intro z f hz hf; cases hz; cases hf
    · intro z hz hi; cases hz; cases hi
    · intro z f hz hf; cases hz; rcases hf with h | h | h <;> cases h
    · intro z hz hf; cases hz; exact (h.idle x rfl hi).2
    · exact h.id_
    · exact h.complete
  · intro p x fs h hi
    constructor
    · intro z f hz hf; cases hz; exact h.file x f rfl hf
    · intro z hz; cases hz; exact h.act x rfl
    · intro z hz; cases hz; exact h.prev x rfl
    · intro z f hz hf; cases hz; cases hf
      exact solid_mergeFile (fun f hf => h.file x f rfl hf) (h.prev x rfl) (h.begun x rfl hi)
    · intro z hz hi; cases hz; cases hi
    · intro z f hz hf; cases hz; rcases hf with h | h | h <;> cases h
    · intro z hz hf; cases hz; cases hf
    · exact h.id_
    · exact h.complete
  · intro hd; cases hd
  · intro p x fs f h hx
    have hs : Solid f.tbl := h.phase x f rfl (by rw [hx]; rfl)
    constructor
    · intro z g hz hf; cases hz; cases hf; exact hs
    · intro z hz; cases hz; exact h.act x rfl
    · intro z hz e he; cases hz; cases he
    · intro z g hz hf; cases hz; cases hf; exact hs
    · intro z hz hi; cases hz; cases hi
    · intro z g hz hf; cases hz; exact ⟨rfl, fun h => (by cases h)⟩
    · intro z hz hf; cases hz; cases hf
    · exact h.id_
    · exact h.complete
  · intro p x fs f h hx
    have hs : Solid f.tbl := h.phase x f rfl (by rw [hx]; rfl)
    have ha := h.after x f rfl (.inl hx)
    constructor
    · intro z g hz hf; cases hz; exact h.file x g rfl hf
    · intro z hz; cases hz; exact h.act x rfl
    · intro z hz; cases hz; exact h.prev x rfl
    · intro z g hz hf; cases hz; cases hf; exact hs
    · intro z hz hi; cases hz; cases hi
    · intro z g hz hf; cases hz; exact ha
    · intro z hz hf; cases hz; cases hf
    · exact h.id_
    · intro g hg; cases hg; exact hs
  · intro p x fs f h hx
    have hs : Solid f.tbl := h.phase x f rfl (by rw [hx]; rfl)
    have ha := h.after x f rfl (.inr (.inl hx))
    constructor
    · intro z g hz hf; cases hz; exact h.file x g rfl hf
    · intro z hz; cases hz; exact h.act x rfl
    · intro z hz; cases hz; exact h.prev x rfl
    · intro z g hz hf; cases hz; cases hf; exact hs
    · intro z hz hi; cases hz; cases hi
    · intro z g hz hf; cases hz; exact ha
    · intro z hz hf; cases hz; cases hf
    · intro g hg; cases hg
    · exact h.complete
  · intro p x fs f h hx
    have hs : Solid f.tbl := h.phase x f rfl (by rw [hx]; rfl)
    have ha := h.after x f rfl (.inr (.inr hx))
    constructor
    · intro z g hz hf; cases hz; exact h.file x g rfl hf
    · intro z hz; cases hz; exact h.act x rfl
    · intro z hz; cases hz; exact h.prev x rfl
    · intro z g hz hf; cases hz; cases hf
    · intro z hz hi; cases hz; exact ⟨ha.1, .inr ha.2⟩
    · intro z g hz hf; cases hz; rcases hf with h | h | h <;> cases h
    · intro z hz hf; cases hz; cases hf
    · intro g hg; cases hg; exact hs
    · intro g hg; cases hg
  · intro hd; cases hd
  · intro hd; cases hd

theorem full_reopens : Reopens (fun _ => Full1) (fun _ => Full1) := by
  constructor
  · intro p s _ _
    constructor <;> intros <;> contradiction
  · intro p s f h hr
    have hs : Solid f.tbl := by
      rcases recover_some hr with h1 | h1
      · exact h.id_ f h1
      · exact h.complete f h1
    constructor
    · intro z g hz hf; cases hz; cases hf; exact hs
    · intro z hz e he; cases hz; cases he
    · intro z hz e he; cases hz; cases he
    · intro z g hz hf; cases hz; cases hf
    · intro z hz hi; cases hz; exact ⟨rfl, .inr fun h => (by cases h)⟩
    · intro z g hz hf; cases hz; rcases hf with h | h | h <;> cases h
    · intro z hz hf; cases hz; cases hf
    · intro g hg; cases hg; exact hs
    · intro g hg; cases hg

/-- After a restart the last partition holds an event. -/
theorem full_last {db : Db} (hq : ∀ p, Quiet (db.slots p)) (hk : ∀ p, p ∉ db.known → db.slots p = {}) (hf : ∀ p, Full1 (db.slots p)) : LastHolds db := by
  have hls := lastOf_spec db db.known
  have hmem : ∀ p x, (db.slots p).part = some x → p ∈ db.known := by
    intro p x h
    by_cases hm : p ∈ db.known
    · exact hm
    · rw [hk p hm] at h; cases h
  cases hl : Serial.lastOf db db.known with
  | none =>
    rw [hl] at hls
    left
    intro p x hx
    have := hls p (hmem p x hx)
    rw [hx] at this; cases this
  | some r =>
    obtain ⟨p, x⟩ := r
    rw [hl] at hls
    right
    refine ⟨p, x, hls.1, ?_, ?_⟩
    · rcases ((hf p).idle x hls.1 ((hq p).part x hls.1).2.1).2 with h | h
      · exact .inl h
      · cases hx : x.file with
        | none => exact (h hx).elim
        | some f => exact .inr ⟨f, rfl, ((hf p).file x f hls.1 hx).1⟩
    · intro q y hy
      exact hls.2 q (hmem q y hy) (by rw [hy]; simp)

/-- What holds throughout a plain history. -/
structure Known (iv : Nat) (s : State) (ids : List Nat) : Prop where
  fresh : Fresh iv s
  full : Holds (Good false NoDel) (fun _ => Full1) s.db
  hist : ∃ H n, Inv iv s.db H n ∧ (∀ y ∈ evs H, y.2.isDelete = false) ∧ ∀ i ∈ ids, ∃ y ∈ evs H, y.2.id = i

theorem live_some {iv n : Nat} {db : Db} {H : List Rec} (h : Inv iv db H n) (hd : ∀ y ∈ evs H, y.2.isDelete = false) {y : Nat × Event}
    (hy : y ∈ evs H) : (view iv db y.2.pair).isSome := by
  rw [view_content h]
  unfold content
  rw [version_vl iv _ H h.writes]
  unfold vl
  have hm : y ∈ (evs H).filter fun x => (fun _ => true) x.1 && x.2.pair == y.2.pair := List.mem_filter.2 ⟨hy, by simp⟩
  cases hl : ((evs H).filter fun x => (fun _ => true) x.1 && x.2.pair == y.2.pair).getLast? with
  | none =>
    rw [List.getLast?_eq_none_iff] at hl
    rw [hl] at hm; cases hm
  | some z =>
    have hz := (List.mem_filter.1 (List.mem_of_getLast? hl)).1
    simp [hd z hz]

theorem Known.next {iv : Nat} {s : State} {ids : List Nat} (h : Known iv s ids) : ∀ i ∈ ids, i < s.ssn := by
  intro i hi
  obtain ⟨H, n, h1, h2, h3⟩ := h.hist
  obtain ⟨y, hy, rfl⟩ := h3 i hi
  obtain ⟨p, e, he, h4⟩ := view_has (live_some h1 h2 hy)
  have := h.fresh.below p e he
  rw [h4] at this
  exact this

theorem known_init (iv : Nat) : Known iv Serial.init [] := by
  refine ⟨fresh_init iv, ⟨fun p => (full_closed iv).nil p, fun _ _ => rfl, ?_⟩, [], 0, init_inv iv, fun y hy => (by cases hy), fun i hi => (by cases hi)⟩
  intro f hf r hr
  simp only [Serial.init, Dur.init, List.mem_singleton] at hf
  subst hf
  cases hr

theorem plain_tame {iv : Nat} {s : State} {ids : List Nat} (h : Known iv s ids) {op : Serial.Op} (hp : Plain s op) : Tame iv s op := by
  cases op with
  | write args => exact ⟨hp.1, hp.2.1⟩
  | refused args => exact hp.elim
  | other o =>
    cases o with
    | crash =>
      intro db hr
      have hf := holds_restart (full_closed iv) full_reopens h.full hr
      exact full_last (quiet_restart iv h.full hr) hf.known hf.slot
    | log es => exact hp.elim
    | _ => trivial

theorem known_step {iv : Nat} {s s' : State} {ids ids' : List Nat} (h : Known iv s ids) {op : Serial.Op} (hp : Plain s op)
    (hs : Serial.step iv s op = .ok (s', ids')) : Known iv s' (ids ++ ids') := by
  have hfresh := fresh_step h.fresh (plain_tame h hp) hs
  obtain ⟨H, n, h1, h2, h3⟩ := h.hist
  cases op with
  | write args =>
    obtain ⟨hr, hb, hd, hn, hlsn⟩ := hp
    simp only [Serial.step] at hs
    cases hpd : s.db.pending with
    | some _ => rw [hpd] at hs; cases hs; rw [List.append_nil]; exact h
    | none =>
      rw [hpd] at hs; cases hs
      have hnd : ∀ e ∈ (assign s.ssn args).1, e.isDelete = false := by
        intro e he
        rcases assign_events args s.ssn hr e he with ⟨a, ha, _, rfl⟩ | ⟨a, ha, _, he2, _⟩
        · exact hd a ha
        · rw [he2]; exact hd a ha
      have hne : (assign s.ssn args).1 ≠ [] := by
        intro hn2
        have := assign_length args s.ssn
        rw [hn2] at this
        exact hn (List.length_eq_zero_iff.1 this.symm)
      refine ⟨hfresh, holds_log (full_closed iv) h.full _ fun _ => ⟨hnd, hnd⟩, _, n, log_inv h1 hpd hne, ?_, ?_⟩
      · intro y hy
        rw [evs_append, evs_write] at hy
        rcases List.mem_append.1 hy with hy | hy
        · exact h2 y hy
        · obtain ⟨e, he, rfl⟩ := List.mem_map.1 hy
          exact hnd e he
      · intro i hi
        rw [evs_append, evs_write]
        rcases List.mem_append.1 hi with hi | hi
        · obtain ⟨y, hy, h4⟩ := h3 i hi
          exact ⟨y, List.mem_append_left _ hy, h4⟩
        · obtain ⟨e, he, h4⟩ := given_assign args s.ssn i hi
          exact ⟨(_, e), List.mem_append_right _ (List.mem_map.2 ⟨e, he, rfl⟩), h4⟩
  | refused args => exact hp.elim
  | other o =>
    have hal : Dur.Allowed s.db o := by
      cases o with
      | log es => exact hp.elim
      | _ => exact hp
    have hnr : ∀ db', newRecs s.db db' o = [] := by
      intro db'
      cases o with
      | log es => exact hp.elim
      | dropRef p => exact hal.elim
      | _ => rfl
    obtain ⟨db', g1, n', g2⟩ := step_inv h1 hal
    rw [hnr, List.append_nil] at g2
    have hids : ids' = [] ∧ s'.db = db' := by
      by_cases hc : o = .crash
      · subst hc
        simp only [Serial.step] at hs
        rw [Res.bind_eq_ok] at hs
        obtain ⟨db, k1, k2⟩ := hs
        cases k2
        have : restart iv s.db = .ok db' := g1
        rw [this] at k1
        cases k1
        exact ⟨rfl, rfl⟩
      · have e : Serial.step iv s (.other o) = (Dur.step iv s.db o).bind fun db => .ok ({ s with db := db }, []) := by
          cases o <;> first | rfl | exact (hc rfl).elim
        rw [e, Res.bind_eq_ok] at hs
        obtain ⟨db, k1, k2⟩ := hs
        cases k2
        rw [g1] at k1
        cases k1
        exact ⟨rfl, rfl⟩
    obtain ⟨rfl, hdb⟩ := hids
    rw [List.append_nil]
    refine ⟨hfresh, ?_, H, n', hdb ▸ g2, h2, h3⟩
    rw [hdb]
    by_cases hc : o = .crash
    · subst hc
      exact holds_restart (full_closed iv) full_reopens h.full g1
    · refine holds_step (full_closed iv) (fun h => (by cases h)) h.full o hc ?_ (.inr ⟨?_, ?_, ?_⟩) g1
      · intro es he; subst he; exact hp.elim
      · intro p he; subst he; exact hal
      · intro p he; subst he; exact hal
      · intro p he; subst he; exact hal

theorem known_run {iv : Nat} : ∀ (ops : List Serial.Op) {s s' : State} {ids ids' : List Nat}, Known iv s ids → All iv Plain s ops →
    Serial.run iv s ids ops = .ok (s', ids') → Known iv s' ids'
  | [], s, s', ids, ids', h, _, hr => by cases hr; exact h
  | op :: ops, s, s', ids, ids', h, ha, hr => by
    simp only [Serial.run] at hr
    rw [Res.bind_eq_ok] at hr
    obtain ⟨⟨s1, i1⟩, h1, h2⟩ := hr
    exact known_run ops (known_step h ha.1 h1) (ha.2 s1 i1 h1) h2

end Verif.C29
