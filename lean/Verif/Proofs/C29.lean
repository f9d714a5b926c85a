import Verif.Proofs.Slots
import Verif.Spec.C29

/-! Helper lemmas for C29. -/
namespace Verif.C29
open Dur Serial
open Wal (Rec)

/-! Serial numbers. -/

theorem assign_ssn : ∀ (args : List Arg) (n : Nat), n + args.length < 18446744073709551616 →
    (assign n args).2 = n + (args.filter (·.serial)).length
  | [], n, _ => by simp [assign]
  | a :: l, n, h => by
    simp only [List.length_cons] at h
    unfold assign
    split
    · rename_i ha
      have hw : wrapU64 (n + 1 : Nat) = n + 1 := by unfold wrapU64; omega
      rw [hw]
      have := assign_ssn l (n + 1) (by omega)
      simp only [List.filter_cons, ha, ite_true, List.length_cons]
      rw [this]
      omega
    · rename_i ha
      have := assign_ssn l n (by omega)
      simp only [List.filter_cons, ha]
      exact this

theorem given_bounds : ∀ (args : List Arg) (n : Nat), n + args.length < 18446744073709551616 →
    (∀ i ∈ given n args, n ≤ i ∧ i < (assign n args).2) ∧ (given n args).Pairwise (· < ·) ∧ n ≤ (assign n args).2
  | [], n, _ => ⟨fun i hi => (by cases hi), .nil, Nat.le_refl _⟩
  | a :: l, n, h => by
    simp only [List.length_cons] at h
    unfold assign given
    have hw : wrapU64 (n + 1 : Nat) = n + 1 := by unfold wrapU64; omega
    split
    · rw [hw]
      obtain ⟨h1, h2, h3⟩ := given_bounds l (n + 1) (by omega)
      refine ⟨?_, ?_, by dsimp only; omega⟩
      · intro i hi
        dsimp only
        rcases List.mem_cons.1 hi with rfl | hi
        · omega
        · have := h1 i hi; omega
      · refine List.Pairwise.cons ?_ h2
        intro i hi
        have := h1 i hi
        omega
    · exact given_bounds l n (by omega)

theorem assign_events : ∀ (args : List Arg) (n : Nat), n + args.length < 18446744073709551616 → ∀ e ∈ (assign n args).1,
    (∃ a ∈ args, a.serial = false ∧ e = a.event) ∨ (∃ a ∈ args, a.serial = true ∧ e = { a.event with id := e.id } ∧ e.id ∈ given n args)
  | [], n, _, e, he => by cases he
  | a :: l, n, h, e, he => by
    simp only [List.length_cons] at h
    have hw : wrapU64 (n + 1 : Nat) = n + 1 := by unfold wrapU64; omega
    unfold assign at he
    unfold given
    split at he
    · rename_i ha
      rw [hw] at he ⊢
      rcases List.mem_cons.1 he with rfl | he
      · exact .inr ⟨a, List.mem_cons_self .., ha, rfl, by simp [ha]⟩
      · rcases assign_events l (n + 1) (by omega) e he with ⟨b, hb, h1⟩ | ⟨b, hb, h1, h2, h3⟩
        · exact .inl ⟨b, List.mem_cons_of_mem _ hb, h1⟩
        · refine .inr ⟨b, List.mem_cons_of_mem _ hb, h1, h2, ?_⟩
          rw [if_pos ha]; exact List.mem_cons_of_mem _ h3
    · rename_i ha
      rcases List.mem_cons.1 he with rfl | he
      · exact .inl ⟨a, List.mem_cons_self .., by simpa using ha, rfl⟩
      · rcases assign_events l n (by omega) e he with ⟨b, hb, h1⟩ | ⟨b, hb, h1, h2, h3⟩
        · exact .inl ⟨b, List.mem_cons_of_mem _ hb, h1⟩
        · refine .inr ⟨b, List.mem_cons_of_mem _ hb, h1, h2, ?_⟩
          rw [if_neg ha]; exact h3

theorem assign_lt {s : State} {args : List Arg} (h : Room s args) (hb : Below s args) :
    ∀ e ∈ (assign s.ssn args).1, e.id < (assign s.ssn args).2 := by
  intro e he
  obtain ⟨h1, h2, h3⟩ := given_bounds args s.ssn h
  rcases assign_events args s.ssn h e he with ⟨a, ha, hs, rfl⟩ | ⟨a, ha, hs, _, hg⟩
  · have := hb a ha hs; omega
  · exact (h1 _ hg).2

theorem assign_le {s : State} {args : List Arg} (h : Room s args) : (assign s.ssn args).2 < 18446744073709551616 := by
  rw [assign_ssn args s.ssn h]
  have := List.length_filter_le (·.serial) args
  unfold Room at h
  omega

theorem given_assign : ∀ (args : List Arg) (n i : Nat), i ∈ given n args → ∃ e ∈ (assign n args).1, e.id = i
  | [], n, i, h => by cases h
  | a :: l, n, i, h => by
    unfold given at h
    unfold assign
    split
    · rename_i ha
      rw [if_pos ha] at h
      rcases List.mem_cons.1 h with rfl | h
      · exact ⟨_, List.mem_cons_self .., rfl⟩
      · obtain ⟨e, he, h1⟩ := given_assign l _ i h
        exact ⟨e, List.mem_cons_of_mem _ he, h1⟩
    · rename_i ha
      rw [if_neg ha] at h
      obtain ⟨e, he, h1⟩ := given_assign l _ i h
      exact ⟨e, List.mem_cons_of_mem _ he, h1⟩

theorem assign_length : ∀ (args : List Arg) (n : Nat), (assign n args).1.length = args.length
  | [], _ => rfl
  | a :: l, n => by
    unfold assign
    split
    · simp [assign_length l]
    · simp [assign_length l]

/-! Events of a partition. -/

def Phase.file? : Phase → Option PFile
  | .merged f => some f
  | .applied f => some f
  | .completed f => some f
  | .deleted f => some f
  | _ => none

/-- The event is in a table or file of the partition. -/
inductive Has : Slot → Event → Prop
  | act {x fs e} : e ∈ x.act.tbl → Has ⟨some x, fs⟩ e
  | prev {x fs e} : e ∈ x.prev.tbl → Has ⟨some x, fs⟩ e
  | file {x fs f e} : x.file = some f → e ∈ f.tbl → Has ⟨some x, fs⟩ e
  | phase {x fs f e} : Phase.file? x.phase = some f → e ∈ f.tbl → Has ⟨some x, fs⟩ e
  | id_ {x fs f e} : fs.id_ = some f → e ∈ f.tbl → Has ⟨x, fs⟩ e
  | complete {x fs f e} : fs.complete = some f → e ∈ f.tbl → Has ⟨x, fs⟩ e

def Each (R : Nat → Event → Prop) (p : Nat) (s : Slot) : Prop := ∀ e, Has s e → R p e

theorem mem_tset {t : Table} {e x : Event} (h : x ∈ tset t e) : x = e ∨ x ∈ t := by
  unfold tset at h
  rcases List.mem_cons.1 h with rfl | h
  · exact .inl rfl
  · exact .inr (List.mem_filter.1 h).1

theorem mem_mergeFile {x : Part} {e : Event} (h : e ∈ (mergeFile x).tbl) : e ∈ x.prev.tbl ∨ ∃ f, x.file = some f ∧ e ∈ f.tbl := by
  unfold mergeFile at h
  cases hf : x.file with
  | none =>
    rw [hf] at h
    have h := (List.mem_filter.1 h).1
    simp at h
    exact .inl h
  | some f =>
    rw [hf] at h
    have h := (List.mem_filter.1 h).1
    rcases List.mem_append.1 h with h | h
    · exact .inl h
    · exact .inr ⟨f, rfl, h⟩

theorem each_closed (iv : Nat) (d : Bool) (Q : Event → Prop) (R : Nat → Event → Prop) (hR : ∀ e, Q e → R (partOf iv e.id) e) :
    Closed iv d Q (Each R) := by
  constructor
  · intro p e h
    cases h
    · rename_i h _; cases h
    · rename_i h _; cases h
  · intro p s e hs he hp x hx
    obtain ⟨pt, fs⟩ := s
    cases hx with
    | act h =>
      rcases mem_tset h with rfl | h
      · exact hp ▸ hR _ he
      · cases pt with
        | none => cases h
        | some y => exact hs _ (.act h)
    | prev h =>
      cases pt with
      | none => cases h
      | some y => exact hs _ (.prev h)
    | file h1 h2 =>
      cases pt with
      | none => cases h1
      | some y => exact hs _ (.file h1 h2)
    | phase h1 h2 =>
      cases pt with
      | none => cases h1
      | some y => exact hs _ (.phase h1 h2)
    | id_ h1 h2 => exact hs _ (.id_ h1 h2)
    | complete h1 h2 => exact hs _ (.complete h1 h2)
  · intro p x fs l hs e he
    cases he with
    | act h => exact hs _ (.act h)
    | prev h => exact hs _ (.prev h)
    | file h1 h2 => exact hs _ (.file h1 h2)
    | phase h1 h2 => exact hs _ (.phase h1 h2)
    | id_ h1 h2 => exact hs _ (.id_ h1 h2)
    | complete h1 h2 => exact hs _ (.complete h1 h2)
  · intro p x fs hs _ e he
    cases he with
    | act h => exact hs _ (.prev h)
    | prev h => exact hs _ (.act h)
    | file h1 h2 => exact hs _ (.file h1 h2)
    | phase h1 h2 => cases h1
    | id_ h1 h2 => exact hs _ (.id_ h1 h2)
    | complete h1 h2 => exact hs _ (.complete h1 h2)
  · intro p x fs hs _ e he
    cases he with
    | act h => exact hs _ (.act h)
    | prev h => exact hs _ (.prev h)
    | file h1 h2 => exact hs _ (.file h1 h2)
    | phase h1 h2 =>
      cases h1
      rcases mem_mergeFile h2 with h | ⟨f, h1, h2⟩
      · exact hs _ (.prev h)
      · exact hs _ (.file h1 h2)
    | id_ h1 h2 => exact hs _ (.id_ h1 h2)
    | complete h1 h2 => exact hs _ (.complete h1 h2)
  · intro _ p x fs hs _ e he
    cases he with
    | act h => exact hs _ (.act h)
    | prev h => exact hs _ (.prev h)
    | file h1 h2 => exact hs _ (.file h1 h2)
    | phase h1 h2 => cases h1
    | id_ h1 h2 => exact hs _ (.id_ h1 h2)
    | complete h1 h2 => exact hs _ (.complete h1 h2)
  · intro p x fs f hs hx e he
    have hf : Phase.file? x.phase = some f := by rw [hx]; rfl
    cases he with
    | act h => exact hs _ (.act h)
    | prev h => cases h
    | file h1 h2 => cases h1; exact hs _ (.phase hf h2)
    | phase h1 h2 => cases h1; exact hs _ (.phase hf h2)
    | id_ h1 h2 => exact hs _ (.id_ h1 h2)
    | complete h1 h2 => exact hs _ (.complete h1 h2)
  · intro p x fs f hs hx e he
    have hf : Phase.file? x.phase = some f := by rw [hx]; rfl
    cases he with
    | act h => exact hs _ (.act h)
    | prev h => exact hs _ (.prev h)
    | file h1 h2 => exact hs _ (.file h1 h2)
    | phase h1 h2 => cases h1; exact hs _ (.phase hf h2)
    | id_ h1 h2 => exact hs _ (.id_ h1 h2)
    | complete h1 h2 => cases h1; exact hs _ (.phase hf h2)
  · intro p x fs f hs hx e he
    have hf : Phase.file? x.phase = some f := by rw [hx]; rfl
    cases he with
    | act h => exact hs _ (.act h)
    | prev h => exact hs _ (.prev h)
    | file h1 h2 => exact hs _ (.file h1 h2)
    | phase h1 h2 => cases h1; exact hs _ (.phase hf h2)
    | id_ h1 h2 => cases h1
    | complete h1 h2 => exact hs _ (.complete h1 h2)
  · intro p x fs f hs hx e he
    have hf : Phase.file? x.phase = some f := by rw [hx]; rfl
    cases he with
    | act h => exact hs _ (.act h)
    | prev h => exact hs _ (.prev h)
    | file h1 h2 => exact hs _ (.file h1 h2)
    | phase h1 h2 => cases h1
    | id_ h1 h2 => cases h1; exact hs _ (.phase hf h2)
    | complete h1 h2 => cases h1
  · intro _ p x fs hs hx e he
    cases he with
    | act h => exact hs _ (.act h)
    | prev h => exact hs _ (.prev h)
    | file h1 h2 => cases h1
    | phase h1 h2 => exact hs _ (.phase h1 h2)
    | id_ h1 h2 => cases h1
    | complete h1 h2 => exact hs _ (.complete h1 h2)
  · intro _ p x fs hs _ _ e he
    cases he with
    | id_ h1 h2 => exact hs _ (.id_ h1 h2)
    | complete h1 h2 => exact hs _ (.complete h1 h2)

theorem recover_some {fs : Files} {f : PFile} (h : recover fs = .ok (some f)) : fs.id_ = some f ∨ fs.complete = some f := by
  obtain ⟨i, b, c⟩ := fs
  unfold recover at h
  cases i <;> cases b <;> cases c <;> simp_all

theorem each_reopens (R : Nat → Event → Prop) : Reopens (Each R) (Each R) := by
  constructor
  · intro p s _ _ e he
    cases he
    · rename_i h _; cases h
    · rename_i h _; cases h
  · intro p s f hs hr e he
    obtain ⟨pt, fs⟩ := s
    have hf : ∀ e ∈ f.tbl, R p e := by
      intro e he
      rcases recover_some hr with h | h
      · exact hs _ (.id_ h he)
      · exact hs _ (.complete h he)
    cases he with
    | act h => cases h
    | prev h => cases h
    | file h1 h2 => cases h1; exact hf _ h2
    | phase h1 h2 => cases h1
    | id_ h1 h2 => cases h1; exact hf _ h2
    | complete h1 h2 => cases h1

/-- After a restart: no refresh runs. -/
structure Quiet (s : Slot) : Prop where
  part : ∀ x, s.part = some x → x.prev.tbl = [] ∧ x.phase = .idle ∧ s.files.id_ = x.file
  gone : s.part = none → s.files.id_ = none
  complete : s.files.complete = none

theorem quiet_put {iv p : Nat} {s : Slot} {e : Event} (h : Quiet s) :
    Quiet { s with part := some { partOr s with act := { (partOr s).act with tbl := tset (partOr s).act.tbl e } } } := by
  obtain ⟨pt, fs⟩ := s
  refine ⟨?_, fun h => (by cases h), h.complete⟩
  intro x hx
  cases hx
  cases pt with
  | none => exact ⟨rfl, rfl, h.gone rfl⟩
  | some y => exact h.part y rfl

/-- The ten steps of `Closed` that do not happen during a restart are left out. -/
theorem quiet_restart (iv : Nat) {G : Nat → Slot → Prop} {W : Rec → Prop} {db db' : Db} (h : Holds W G db) (hs : restart iv db = .ok db') :
    ∀ p, Quiet (db'.slots p) := by
  have key : ∀ {db : Db} (p : Nat), (∀ p, Quiet (db.slots p)) → ∀ s, Quiet s → ∀ q, Quiet ((db.set p s).slots q) := by
    intro db p h s hs q
    rw [set_slots]
    split
    · exact hs
    · exact h q
  have hev : ∀ l (es : List Event) (db : Db), (∀ p, Quiet (db.slots p)) → ∀ p, Quiet ((es.foldl (replayEvent iv l) db).slots p) := by
    intro l es
    induction es with
    | nil => exact fun db h => h
    | cons e es ih =>
      intro db h
      refine ih _ ?_
      show ∀ p, Quiet ((if (partOr (db.slots (partOf iv e.id))).file.any (fun f => f.lsn ≥ l) = true then db
        else db.set (partOf iv e.id)
          { db.slots (partOf iv e.id) with
            part := some
              { partOr (db.slots (partOf iv e.id)) with
                act := ({ (partOr (db.slots (partOf iv e.id))).act with
                  tbl := tset (partOr (db.slots (partOf iv e.id))).act.tbl e }).follow l } }).slots p)
      split
      · exact h
      · have h1 := quiet_put (iv := iv) (p := 0) (e := e) (h (partOf iv e.id))
        refine key _ h _ ⟨?_, fun h => (by cases h), h1.complete⟩
        intro x hx
        have h2 := h1.part _ rfl
        cases hx
        exact h2
  have hrec : ∀ r (db : Db), (∀ p, Quiet (db.slots p)) → ∀ p, Quiet ((replayRec iv db r).slots p) := by
    intro r db h
    cases r with
    | write l n es => exact hev l es db h
    | drop l q =>
      have h1 : ∀ p, Quiet ((dropFile iv db q).slots p) := by
        unfold dropFile
        split
        · exact h
        · unfold onPart
          dsimp only
          cases hp : (db.slots q).part with
          | none => exact h
          | some x =>
            dsimp only
            split
            · exact h
            · rename_i p2 f2 e
              split at e
              · cases e
                refine key _ h _ ⟨?_, fun h => (by cases h), (h q).complete⟩
                intro y hy
                cases hy
                have := (h q).part x hp
                exact ⟨this.1, this.2.1, rfl⟩
              · cases e
      show ∀ p, Quiet ((dropRef iv (dropFile iv db q) q).slots p)
      generalize dropFile iv db q = db2 at h1
      unfold dropRef
      split
      · exact h1
      · cases hp : (db2.slots q).part with
        | none => exact h1
        | some x =>
          dsimp only
          split
          · rename_i hx
            refine key _ h1 _ ⟨fun y hy => (by cases hy), fun _ => ?_, (h1 q).complete⟩
            rw [((h1 q).part x hp).2.2]
            exact hx.2
          · exact h1
  have hrecs : ∀ (rs : List Rec) (db : Db), (∀ p, Quiet (db.slots p)) → ∀ p, Quiet ((rs.foldl (replayRec iv) db).slots p) := by
    intro rs
    induction rs with
    | nil => exact fun db h => h
    | cons r rs ih => exact fun db h => ih _ (hrec r db h)
  have hfrom : ∀ n i (db : Db), (∀ p, Quiet (db.slots p)) → ∀ p, Quiet ((replayFrom iv n i db).slots p) := by
    intro n
    induction n with
    | zero => exact fun i db h => h
    | succ n ih =>
      intro i db h
      unfold replayFrom
      split
      · exact h
      · exact ih _ _ (hrecs _ _ h)
  unfold restart at hs
  rw [Res.bind_eq_ok] at hs
  obtain ⟨db1, h1, h2⟩ := hs
  have R : Reopens G (fun _ => Quiet) := by
    constructor
    · intro p s _ _
      exact ⟨fun x hx => (by cases hx), fun _ => rfl, rfl⟩
    · intro p s f _ _
      refine ⟨?_, fun h => (by cases h), rfl⟩
      intro x hx
      cases hx
      exact ⟨rfl, rfl, rfl⟩
  obtain ⟨i1, i2, i3, i4⟩ := recoverAll_holds R h _ _ h1
  have hh : ∀ p, Quiet (db1.slots p) := by
    intro p
    by_cases hp : p ∈ db.known
    · exact i1 p hp
    · rw [i2 p hp, h.known p hp]
      exact ⟨fun x hx => (by cases hx), fun _ => rfl, rfl⟩
  split at h2
  · cases h2
    exact hh
  · cases h2
    exact hfrom _ _ _ hh

/-! The last partition. -/

theorem lastOf_spec (db : Db) : ∀ l : List Nat,
    match Serial.lastOf db l with
    | none => ∀ p ∈ l, (db.slots p).part = none
    | some (p, x) => (db.slots p).part = some x ∧ ∀ q ∈ l, (db.slots q).part ≠ none → q ≤ p
  | [] => by intro p hp; cases hp
  | p :: l => by
    have ih := lastOf_spec db l
    unfold Serial.lastOf
    cases hp : (db.slots p).part with
    | none =>
      cases hl : Serial.lastOf db l with
      | none =>
        rw [hl] at ih
        intro q hq
        rcases List.mem_cons.1 hq with rfl | hq
        · exact hp
        · exact ih q hq
      | some r =>
        rw [hl] at ih
        refine ⟨ih.1, ?_⟩
        intro q hq hn
        rcases List.mem_cons.1 hq with rfl | hq
        · exact (hn hp).elim
        · exact ih.2 q hq hn
    | some x =>
      cases hl : Serial.lastOf db l with
      | none =>
        rw [hl] at ih
        refine ⟨hp, ?_⟩
        intro q hq hn
        rcases List.mem_cons.1 hq with rfl | hq
        · exact Nat.le_refl _
        · exact (hn (ih q hq)).elim
      | some r =>
        obtain ⟨r, y⟩ := r
        rw [hl] at ih
        dsimp only
        dsimp only at ih
        by_cases hpr : p > r
        · rw [if_pos hpr]
          refine ⟨hp, ?_⟩
          intro q hq hn
          rcases List.mem_cons.1 hq with rfl | hq
          · exact Nat.le_refl _
          · have := ih.2 q hq hn; omega
        · rw [if_neg hpr]
          refine ⟨ih.1, ?_⟩
          intro q hq hn
          rcases List.mem_cons.1 hq with rfl | hq
          · omega
          · exact ih.2 q hq hn

theorem tblMax_spec : ∀ t : Table, match tblMax t with
    | none => t = []
    | some m => (∃ e ∈ t, e.id = m) ∧ ∀ e ∈ t, e.id ≤ m
  | [] => rfl
  | e :: t => by
    have ih := tblMax_spec t
    unfold tblMax
    cases ht : tblMax t with
    | none =>
      rw [ht] at ih
      subst ih
      simp
    | some m =>
      rw [ht] at ih
      obtain ⟨⟨y, hy, h1⟩, h2⟩ := ih
      dsimp only
      split
      · refine ⟨⟨e, List.mem_cons_self .., rfl⟩, ?_⟩
        intro z hz
        rcases List.mem_cons.1 hz with rfl | hz
        · exact Nat.le_refl _
        · have := h2 z hz; omega
      · refine ⟨⟨y, List.mem_cons_of_mem _ hy, h1⟩, ?_⟩
        intro z hz
        rcases List.mem_cons.1 hz with rfl | hz
        · omega
        · exact h2 z hz

theorem partOf_mono {iv a b : Nat} (h : a ≤ b) : partOf iv a ≤ partOf iv b := by
  unfold partOf Ranges.intervalOf
  have h1 := Nat.div_add_mod a iv
  have h2 := Nat.div_add_mod b iv
  have h3 : a / iv ≤ b / iv := Nat.div_le_div_right h
  have h4 : iv * (a / iv) ≤ iv * (b / iv) := Nat.mul_le_mul_left _ h3
  omega

/-- What is known of every event: its partition, and that there is a number after
its id. -/
def Placed (iv : Nat) (p : Nat) (e : Event) : Prop := partOf iv e.id = p ∧ e.id + 1 < 18446744073709551616

theorem setSerial_fresh {iv : Nat} {db : Db} (hq : ∀ p, Quiet (db.slots p)) (hk : ∀ p, p ∉ db.known → db.slots p = {})
    (hp : ∀ p, Each (Placed iv) p (db.slots p)) (hl : LastHolds db) : ∀ p e, Has (db.slots p) e → e.id < setSerial db := by
  have hmem : ∀ p x, (db.slots p).part = some x → p ∈ db.known := by
    intro p x h
    by_cases hm : p ∈ db.known
    · exact hm
    · rw [hk p hm] at h; cases h
  -- events are in the current table or in the file
  have hin : ∀ p e, Has (db.slots p) e → ∃ x, (db.slots p).part = some x ∧ (e ∈ x.act.tbl ∨ ∃ f, x.file = some f ∧ e ∈ f.tbl) := by
    intro p e h
    have q := hq p
    generalize db.slots p = S at h q
    cases h with
    | act h => exact ⟨_, rfl, .inl h⟩
    | prev h => rw [(q.part _ rfl).1] at h; cases h
    | file h1 h2 => exact ⟨_, rfl, .inr ⟨_, h1, h2⟩⟩
    | phase h1 h2 => rw [(q.part _ rfl).2.1] at h1; cases h1
    | @id_ x fs f e h1 h2 =>
      cases x with
      | none => have := q.gone rfl; dsimp only at this; rw [this] at h1; cases h1
      | some x => exact ⟨x, rfl, .inr ⟨f, by rw [← (q.part x rfl).2.2]; exact h1, h2⟩⟩
    | complete h1 h2 => have := q.complete; dsimp only at this; rw [this] at h1; cases h1
  intro p e he
  obtain ⟨x, hx, hex⟩ := hin p e he
  have hpe := hp p e he
  rcases hl with hl | ⟨m, y, hy, hne, hmax⟩
  · have := hl p x hx
    rcases hex with h | ⟨f, hf, h⟩
    · rw [this.1] at h; cases h
    · rw [this.2 f hf] at h; cases h
  · have hls := lastOf_spec db db.known
    have hlast : Serial.lastOf db db.known = some (m, y) := by
      cases hl2 : Serial.lastOf db db.known with
      | none =>
        rw [hl2] at hls
        have := hls m (hmem m y hy)
        rw [hy] at this; cases this
      | some r =>
        obtain ⟨r, z⟩ := r
        rw [hl2] at hls
        have h1 := hls.2 m (hmem m y hy) (by rw [hy]; simp)
        have h2 := hmax r z hls.1
        have : r = m := by omega
        subst this
        have h3 := hls.1
        rw [hy] at h3
        cases h3
        rfl
    -- the number after all events of the last partition
    have hser : ∀ z, (z ∈ y.act.tbl ∨ ∃ f, y.file = some f ∧ z ∈ f.tbl) → z.id < setSerial db := by
      intro z hz
      have hplaced : ∀ z, (z ∈ y.act.tbl ∨ ∃ f, y.file = some f ∧ z ∈ f.tbl) → z.id + 1 < 18446744073709551616 := by
        intro z hz
        have : Has (db.slots m) z := by
          generalize db.slots m = S at hy
          obtain ⟨pt, fs⟩ := S
          cases hy
          rcases hz with h | ⟨f, h1, h2⟩
          · exact .act h
          · exact .file h1 h2
        exact (hp m z this).2
      unfold setSerial
      rw [hlast]
      dsimp only
      have ha := tblMax_spec y.act.tbl
      cases hf : y.file with
      | none =>
        rw [hf] at hz
        have hz : z ∈ y.act.tbl := by
          rcases hz with h | ⟨f, h, _⟩
          · exact h
          · cases h
        cases hA : tblMax y.act.tbl with
        | none => rw [hA] at ha; dsimp only at ha; rw [ha] at hz; cases hz
        | some a =>
          rw [hA] at ha
          obtain ⟨⟨w, hw, h1⟩, h2⟩ := ha
          have := h2 z hz
          have := hplaced w (.inl hw)
          dsimp only
          rw [if_pos (by omega)]
          unfold wrapU64
          omega
      | some f =>
        have hff := tblMax_spec f.tbl
        rw [hf] at hz
        cases hF : tblMax f.tbl with
        | none =>
          rw [hF] at hff
          dsimp only at hff
          have hz : z ∈ y.act.tbl := by
            rcases hz with h | ⟨g, h, h2⟩
            · exact h
            · cases h; rw [hff] at h2; cases h2
          cases hA : tblMax y.act.tbl with
          | none => rw [hA] at ha; dsimp only at ha; rw [ha] at hz; cases hz
          | some a =>
            rw [hA] at ha
            obtain ⟨⟨w, hw, h1⟩, h2⟩ := ha
            have := h2 z hz
            have := hplaced w (.inl hw)
            simp only [hF]
            rw [if_pos (by omega)]
            unfold wrapU64
            omega
        | some b =>
          rw [hF] at hff
          obtain ⟨⟨v, hv, h3⟩, h4⟩ := hff
          have := hplaced v (.inr ⟨f, hf, hv⟩)
          cases hA : tblMax y.act.tbl with
          | none =>
            rw [hA] at ha
            dsimp only at ha
            simp only [hF]
            rcases hz with h | ⟨g, h, h2⟩
            · rw [ha] at h; cases h
            · cases h
              have := h4 z h2
              unfold wrapU64
              omega
          | some a =>
            rw [hA] at ha
            obtain ⟨⟨w, hw, h1⟩, h2⟩ := ha
            have := hplaced w (.inl hw)
            simp only [hF]
            have hz : z.id ≤ a ∨ z.id ≤ b := by
              rcases hz with h | ⟨g, h, h5⟩
              · exact .inl (h2 z h)
              · cases h; exact .inr (h4 z h5)
            split
            · unfold wrapU64; omega
            · unfold wrapU64; omega
    by_cases hpm : p = m
    · subst hpm
      rw [hy] at hx
      cases hx
      exact hser e hex
    · have h1 := hmax p x hx
      obtain ⟨z, hz⟩ : ∃ z, z ∈ y.act.tbl ∨ ∃ f, y.file = some f ∧ z ∈ f.tbl := by
        rcases hne with h | ⟨f, hf, h⟩
        · obtain ⟨z, hz⟩ := List.exists_mem_of_ne_nil _ h
          exact ⟨z, .inl hz⟩
        · obtain ⟨z, hz⟩ := List.exists_mem_of_ne_nil _ h
          exact ⟨z, .inr ⟨f, hf, hz⟩⟩
      have h2 := hser z hz
      have h3 : partOf iv z.id = m := by
        have : Has (db.slots m) z := by
          generalize db.slots m = S at hy
          obtain ⟨pt, fs⟩ := S
          cases hy
          rcases hz with h | ⟨f, h1, h2⟩
          · exact .act h
          · exact .file h1 h2
        exact (hp m z this).1
      have h4 : e.id < z.id := by
        by_cases hlt : e.id < z.id
        · exact hlt
        · have := partOf_mono (iv := iv) (Nat.le_of_not_lt hlt)
          rw [hpe.1, h3] at this
          omega
      omega

/-! Histories. -/

theorem holds_touch {iv : Nat} {W : Rec → Prop} {R : Nat → Event → Prop} : ∀ (es : List Event) {db : Db}, Holds W (Each R) db →
    Holds W (Each R) (es.foldl (touch iv) db)
  | [], _, h => h
  | e :: es, db, h => by
    refine holds_touch es (db := touch iv db e) ?_
    unfold touch
    dsimp only
    split
    · exact h
    · refine holds_set h _ _ ?_
      have hs := h.slot (partOf iv e.id)
      generalize db.slots (partOf iv e.id) = S at hs
      obtain ⟨pt, fs⟩ := S
      intro x hx
      cases hx with
      | act h => cases h
      | prev h => cases h
      | file h => cases h
      | phase h => cases h
      | id_ h1 h2 => exact hs _ (.id_ h1 h2)
      | complete h1 h2 => exact hs _ (.complete h1 h2)

def Num (e : Event) : Prop := e.id + 1 < 18446744073709551616

structure Fresh (iv : Nat) (s : State) : Prop where
  placed : Holds (Good true Num) (Each (Placed iv)) s.db
  below : ∀ p e, Has (s.db.slots p) e → e.id < s.ssn

theorem placed_closed (iv : Nat) (d : Bool) : Closed iv d Num (Each (Placed iv)) := each_closed iv d Num _ fun _ h => ⟨rfl, h⟩

theorem below_closed (iv : Nat) (d : Bool) (n : Nat) : Closed iv d (fun e => e.id < n) (Each fun _ e => e.id < n) :=
  each_closed iv d _ _ fun _ h => h

theorem Fresh.holds {iv : Nat} {s : State} (h : Fresh iv s) {n : Nat} (hn : s.ssn ≤ n) :
    Holds (fun _ => True) (Each fun _ e => e.id < n) s.db :=
  ⟨fun p e he => Nat.lt_of_lt_of_le (h.below p e he) hn, h.placed.known, fun _ _ _ _ => trivial⟩

theorem has_nil {e : Event} (h : Has {} e) : False := by
  cases h
  · rename_i h _; cases h
  · rename_i h _; cases h

theorem fresh_init (iv : Nat) : Fresh iv Serial.init := by
  refine ⟨⟨?_, fun _ _ => rfl, ?_⟩, ?_⟩
  · intro p e h; exact (has_nil h).elim
  · intro f hf r hr
    simp only [Serial.init, Dur.init, List.mem_singleton] at hf
    subst hf
    cases hr
  · intro p e h; exact (has_nil h).elim

theorem assign_num {s : State} {args : List Arg} (h : Room s args) (hb : Below s args) : ∀ e ∈ (assign s.ssn args).1, Num e := by
  intro e he
  have := assign_lt h hb e he
  have := assign_le h
  unfold Num
  omega

theorem fresh_write {iv : Nat} {s : State} (h : Fresh iv s) {args : List Arg} (hr : Room s args) (hb : Below s args) (hp : s.db.pending = none) :
    Fresh iv { db := Dur.log iv s.db (assign s.ssn args).1, ssn := (assign s.ssn args).2 } := by
  obtain ⟨_, _, h3⟩ := given_bounds args s.ssn hr
  refine ⟨?_, ?_⟩
  · exact holds_log (placed_closed iv true) h.placed _ fun _ => ⟨assign_num hr hb, assign_num hr hb⟩
  · exact fun p e he => (holds_log (below_closed iv true _) (h.holds h3) _ fun _ => ⟨assign_lt hr hb, trivial⟩).slot p e he

theorem fresh_step {iv : Nat} {s s' : State} {ids : List Nat} (h : Fresh iv s) {op : Serial.Op} (ht : Tame iv s op)
    (hs : Serial.step iv s op = .ok (s', ids)) : Fresh iv s' := by
  cases op with
  | write args =>
    simp only [Serial.step] at hs
    cases hp : s.db.pending with
    | some _ => rw [hp] at hs; cases hs; exact h
    | none => rw [hp] at hs; cases hs; exact fresh_write h ht.1 ht.2 hp
  | refused args =>
    simp only [Serial.step] at hs
    cases hp : s.db.pending with
    | some _ => rw [hp] at hs; cases hs; exact h
    | none =>
      rw [hp] at hs; cases hs
      obtain ⟨_, _, h3⟩ := given_bounds args s.ssn ht.1
      exact ⟨holds_touch _ h.placed, fun p e he => (holds_touch (iv := iv) (assign s.ssn args).1 (h.holds h3)).slot p e he⟩
  | other o =>
    by_cases hc : o = .crash
    · subst hc
      simp only [Serial.step] at hs
      rw [Res.bind_eq_ok] at hs
      obtain ⟨db, h1, h2⟩ := hs
      cases h2
      have hp := holds_restart (placed_closed iv true) (each_reopens _) h.placed h1
      exact ⟨hp, setSerial_fresh (quiet_restart iv h.placed h1) hp.known hp.slot (ht db h1)⟩
    · have e : Serial.step iv s (.other o) = (Dur.step iv s.db o).bind fun db => .ok ({ s with db := db }, []) := by
        cases o <;> first | rfl | exact (hc rfl).elim
      rw [e, Res.bind_eq_ok] at hs
      obtain ⟨db, h1, h2⟩ := hs
      cases h2
      have hl : ∀ es, o ≠ .log es := by
        intro es he
        subst he
        exact ht
      refine ⟨holds_step (placed_closed iv true) (fun _ _ _ => rfl) h.placed o hc (fun es he => (hl es he).elim) (.inl rfl) h1, ?_⟩
      exact fun p e he => (holds_step (below_closed iv true _) (fun _ _ _ => trivial) (h.holds (Nat.le_refl _)) o hc
        (fun es he => (hl es he).elim) (.inl rfl) h1).slot p e he

/-- What a reader finds is in a table or file. -/
theorem view_has {iv : Nat} {db : Db} {k : Nat × List UInt8} (h : (view iv db k).isSome) : ∃ p e, Has (db.slots p) e ∧ e.id = k.1 := by
  refine ⟨partOf iv k.1, ?_⟩
  unfold view at h
  generalize db.slots (partOf iv k.1) = S at h
  obtain ⟨pt, fs⟩ := S
  cases pt with
  | none => cases h
  | some x =>
    dsimp only at h
    have hget : ∀ {t : Table} {e : Event}, tget t k = some e → e ∈ t ∧ e.id = k.1 := by
      intro t e h
      unfold tget at h
      have h1 := List.find?_some h
      simp only [beq_iff_eq] at h1
      exact ⟨List.mem_of_find?_eq_some h, by rw [← h1]; rfl⟩
    cases ha : tget x.act.tbl k with
    | some e => exact ⟨e, .act (hget ha).1, (hget ha).2⟩
    | none =>
      cases hb : tget x.prev.tbl k with
      | some e => exact ⟨e, .prev (hget hb).1, (hget hb).2⟩
      | none =>
        cases hf : x.file with
        | none => rw [ha, hb, hf] at h; cases h
        | some f =>
          cases hc : tget f.tbl k with
          | none => rw [ha, hb, hf] at h; dsimp only at h; rw [hc] at h; cases h
          | some e => exact ⟨e, .file hf (hget hc).1, (hget hc).2⟩

theorem fresh_run {iv : Nat} : ∀ (ops : List Serial.Op) {s s' : State} {ids ids' : List Nat}, Fresh iv s → All iv (Tame iv) s ops →
    Serial.run iv s ids ops = .ok (s', ids') → Fresh iv s'
  | [], s, s', ids, ids', h, _, hr => by cases hr; exact h
  | op :: ops, s, s', ids, ids', h, ha, hr => by
    simp only [Serial.run] at hr
    rw [Res.bind_eq_ok] at hr
    obtain ⟨⟨s1, i1⟩, h1, h2⟩ := hr
    exact fresh_run ops (fresh_step h ha.1 h1) (ha.2 s1 i1 h1) h2

/-- Without restart the number only grows. -/
theorem running_step {iv : Nat} {s s' : State} {ids : List Nat} {op : Serial.Op} (ht : Running s op)
    (hs : Serial.step iv s op = .ok (s', ids)) : s.ssn ≤ s'.ssn ∧ (∀ i ∈ ids, s.ssn ≤ i ∧ i < s'.ssn) ∧ ids.Pairwise (· < ·) := by
  cases op with
  | write args =>
    simp only [Serial.step] at hs
    obtain ⟨h1, h2, h3⟩ := given_bounds args s.ssn ht
    cases hp : s.db.pending with
    | some _ => rw [hp] at hs; cases hs; exact ⟨Nat.le_refl _, fun i hi => (by cases hi), .nil⟩
    | none => rw [hp] at hs; cases hs; exact ⟨h3, h1, h2⟩
  | refused args =>
    simp only [Serial.step] at hs
    obtain ⟨h1, h2, h3⟩ := given_bounds args s.ssn ht
    cases hp : s.db.pending with
    | some _ => rw [hp] at hs; cases hs; exact ⟨Nat.le_refl _, fun i hi => (by cases hi), .nil⟩
    | none => rw [hp] at hs; cases hs; exact ⟨h3, fun i hi => (by cases hi), .nil⟩
  | other o =>
    have e : Serial.step iv s (.other o) = (Dur.step iv s.db o).bind fun db => .ok ({ s with db := db }, []) := by
      cases o <;> first | rfl | exact (ht rfl).elim
    rw [e, Res.bind_eq_ok] at hs
    obtain ⟨db, h1, h2⟩ := hs
    cases h2
    exact ⟨Nat.le_refl _, fun i hi => (by cases hi), .nil⟩

theorem running_run {iv : Nat} : ∀ (ops : List Serial.Op) {s s' : State} {ids ids' : List Nat}, (∀ i ∈ ids, i < s.ssn) → ids.Pairwise (· < ·) →
    All iv Running s ops → Serial.run iv s ids ops = .ok (s', ids') → (∀ i ∈ ids', i < s'.ssn) ∧ ids'.Pairwise (· < ·)
  | [], s, s', ids, ids', h, hp, _, hr => by cases hr; exact ⟨h, hp⟩
  | op :: ops, s, s', ids, ids', h, hp, ha, hr => by
    simp only [Serial.run] at hr
    rw [Res.bind_eq_ok] at hr
    obtain ⟨⟨s1, i1⟩, h1, h2⟩ := hr
    obtain ⟨g1, g2, g3⟩ := running_step ha.1 h1
    refine running_run ops ?_ ?_ (ha.2 s1 i1 h1) h2
    · intro i hi
      rcases List.mem_append.1 hi with hi | hi
      · have := h i hi; omega
      · exact (g2 i hi).2
    · rw [List.pairwise_append]
      refine ⟨hp, g3, ?_⟩
      intro a ha b hb
      have := h a ha
      have := (g2 b hb).1
      omega

end Verif.C29
