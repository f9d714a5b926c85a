import Verif.Proofs.DurRun

/-! Facts about every partition of the database, whatever happens. -/
namespace Verif.Dur
open Wal (Rec)

/-- A fact about partitions kept by what happens between restarts.  `Q` is what
is known of the events written. -/
structure Closed (iv : Nat) (d : Bool) (Q : Event → Prop) (G : Nat → Slot → Prop) : Prop where
  nil : ∀ p, G p {}
  put : ∀ p s e, G p s → Q e → partOf iv e.id = p →
    G p { s with part := some { partOr s with act := { (partOr s).act with tbl := tset (partOr s).act.tbl e } } }
  follow : ∀ p x fs l, G p ⟨some x, fs⟩ → G p ⟨some { x with act := x.act.follow l }, fs⟩
  begin_ : ∀ p x fs, G p ⟨some x, fs⟩ → x.phase = .idle → G p ⟨some { x with act := x.prev, prev := x.act, phase := .begun }, fs⟩
  merge : ∀ p x fs, G p ⟨some x, fs⟩ → x.phase = .begun →
    G p ⟨some { x with phase := .merged (mergeFile x) }, { fs with incomplete := true }⟩
  fail : d = true → ∀ p x fs, G p ⟨some x, fs⟩ → x.phase = .begun → G p ⟨some { x with phase := .idle }, { fs with incomplete := true }⟩
  apply_ : ∀ p x fs f, G p ⟨some x, fs⟩ → x.phase = .merged f →
    G p ⟨some { file := some f, act := x.act, prev := {}, phase := .applied f }, fs⟩
  complete : ∀ p x fs f, G p ⟨some x, fs⟩ → x.phase = .applied f →
    G p ⟨some { x with phase := .completed f }, { fs with incomplete := false, complete := some f }⟩
  delete : ∀ p x fs f, G p ⟨some x, fs⟩ → x.phase = .completed f → G p ⟨some { x with phase := .deleted f }, { fs with id_ := none }⟩
  finish : ∀ p x fs f, G p ⟨some x, fs⟩ → x.phase = .deleted f →
    G p ⟨some { x with phase := .idle }, { fs with id_ := some f, complete := none }⟩
  dropFile : d = true → ∀ p x fs, G p ⟨some x, fs⟩ → x.phase = .idle → G p ⟨some { x with file := none }, { fs with id_ := none }⟩
  dropRef : d = true → ∀ p x fs, G p ⟨some x, fs⟩ → x.phase = .idle → x.file = none → G p ⟨none, fs⟩

/-- The partitions and the log. -/
structure Holds (W : Rec → Prop) (G : Nat → Slot → Prop) (db : Db) : Prop where
  slot : ∀ p, G p (db.slots p)
  known : ∀ p, p ∉ db.known → db.slots p = {}
  wal : ∀ f ∈ db.wal, ∀ r ∈ f.2, W r

variable {iv : Nat} {d : Bool} {Q : Event → Prop} {W : Rec → Prop} {G : Nat → Slot → Prop}

theorem holds_set {db : Db} (h : Holds W G db) (p : Nat) (s : Slot) (hs : G p s) : Holds W G (db.set p s) := by
  refine ⟨?_, ?_, h.wal⟩
  · intro q
    rw [set_slots]
    split
    · rename_i e; subst e; exact hs
    · exact h.slot q
  · exact known_set h.known p s

theorem holds_onPart {db : Db} (h : Holds W G db) (p : Nat) (f : Part → Files → Option (Part × Files))
    (hf : ∀ x fs x' fs', G p ⟨some x, fs⟩ → f x fs = some (x', fs') → G p ⟨some x', fs'⟩) : Holds W G (onPart db p f) := by
  unfold onPart
  dsimp only
  cases hp : (db.slots p).part with
  | none => exact h
  | some x =>
    dsimp only
    cases e : f x (db.slots p).files with
    | none => exact h
    | some r =>
      obtain ⟨x', fs'⟩ := r
      dsimp only
      refine holds_set h p _ (hf x (db.slots p).files x' fs' ?_ e)
      have := h.slot p
      have e2 : db.slots p = ⟨some x, (db.slots p).files⟩ := by
        cases hs : db.slots p; rw [hs] at hp; simp_all
      rw [e2] at this
      exact this

theorem holds_append {db : Db} (h : Holds W G db) (r : Rec) (hr : W r) : Holds W G (db.append r) := by
  refine ⟨h.slot, h.known, ?_⟩
  intro f hf r' hr'
  simp only [Db.append, List.mem_map] at hf
  obtain ⟨g, hg, rfl⟩ := hf
  split at hr'
  · simp only [List.mem_append, List.mem_singleton] at hr'
    rcases hr' with hr' | rfl
    · exact h.wal g hg r' hr'
    · exact hr
  · exact h.wal g hg r' hr'

theorem holds_put (C : Closed iv d Q G) {db : Db} (h : Holds W G db) (e : Event) (he : Q e) : Holds W G (putEvent iv db e) := by
  have := C.put (partOf iv e.id) (db.slots (partOf iv e.id)) e (h.slot _) he rfl
  exact holds_set h _ _ this

theorem holds_puts (C : Closed iv d Q G) : ∀ (es : List Event) {db : Db}, Holds W G db → (∀ e ∈ es, Q e) → Holds W G (es.foldl (putEvent iv) db)
  | [], _, h, _ => h
  | e :: es, _, h, he => holds_puts C es (holds_put C h e (he e (List.mem_cons_self ..))) (fun x hx => he x (List.mem_cons_of_mem _ hx))

theorem holds_log (C : Closed iv d Q G) {db : Db} (h : Holds W G db) (es : List Event) (he : db.pending = none → (∀ e ∈ es, Q e) ∧ W (.write (db.lsn + 1) es.length es)) :
    Holds W G (log iv db es) := by
  unfold log
  cases hp : db.pending with
  | some _ => exact h
  | none =>
    have he := he hp
    have h0 := holds_puts C es h he.1
    have h1 := holds_append h0 (.write (db.lsn + 1) es.length es) he.2
    exact ⟨h1.slot, h1.known, h1.wal⟩

theorem holds_follow (C : Closed iv d Q G) {db : Db} (h : Holds W G db) (l : Nat) (e : Event) : Holds W G (followEvent iv l db e) := by
  unfold followEvent
  dsimp only
  cases hp : (db.slots (partOf iv e.id)).part with
  | none => exact h
  | some x =>
    dsimp only
    refine holds_set h _ _ (C.follow _ x _ l ?_)
    have := h.slot (partOf iv e.id)
    have e2 : db.slots (partOf iv e.id) = ⟨some x, (db.slots (partOf iv e.id)).files⟩ := by
      cases hs : db.slots (partOf iv e.id); rw [hs] at hp; simp_all
    rw [e2] at this
    exact this

theorem holds_follows (C : Closed iv d Q G) (l : Nat) : ∀ (es : List Event) {db : Db}, Holds W G db →
    Holds W G (es.foldl (followEvent iv l) db)
  | [], _, h => h
  | e :: es, _, h => holds_follows C l es (holds_follow C h l e)

theorem holds_dropFile (C : Closed iv d Q G) (hd : d = true) {db : Db} (h : Holds W G db) (p : Nat) : Holds W G (dropFile iv db p) := by
  unfold dropFile
  split
  · exact h
  · refine holds_onPart h p _ ?_
    intro x fs x' fs' hg e
    split at e
    · cases e
      exact C.dropFile hd p x fs hg (by assumption)
    · cases e

theorem holds_dropRef (C : Closed iv d Q G) (hd : d = true) (hW : ∀ l p, W (.drop l p)) {db : Db} (h : Holds W G db) (p : Nat) : Holds W G (dropRef iv db p) := by
  unfold dropRef
  split
  · exact h
  · cases hp : (db.slots p).part with
    | none => exact h
    | some x =>
      dsimp only
      split
      · rename_i hx
        refine holds_append (holds_set h p _ ?_) (.drop (db.lsn + 1) p) (hW _ _)
        have := h.slot p
        have e2 : db.slots p = ⟨some x, (db.slots p).files⟩ := by
          cases hs : db.slots p; rw [hs] at hp; simp_all
        rw [e2] at this
        exact C.dropRef hd p x _ this hx.1 hx.2
      · exact h

/-- Steps other than restarts. -/
theorem holds_step (C : Closed iv d Q G) (hW : d = true → ∀ l p, W (.drop l p)) {db : Db} (h : Holds W G db) (op : Op) (hc : op ≠ .crash)
    (hl : ∀ es, op = .log es → db.pending = none → (∀ e ∈ es, Q e) ∧ W (.write (db.lsn + 1) es.length es))
    (hd : d = true ∨ ((∀ p, op ≠ .fail p) ∧ (∀ p, op ≠ .dropFile p) ∧ ∀ p, op ≠ .dropRef p)) {db' : Db} (hs : step iv db op = .ok db') :
    Holds W G db' := by
  cases op with
  | log es => cases hs; exact holds_log C h es (hl es rfl)
  | commit =>
    cases hs
    unfold commit
    cases hp : db.pending with
    | none => exact h
    | some r =>
      have := holds_follows C r.1 r.2 h
      exact ⟨this.slot, this.known, this.wal⟩
  | rotate =>
    simp only [step, rotate] at hs
    split at hs
    · cases hs; exact h
    · split at hs
      · cases hs
      · cases hs
        refine ⟨h.slot, h.known, ?_⟩
        intro f hf r hr
        simp only [List.mem_append, List.mem_singleton] at hf
        rcases hf with (hf | rfl) | hf
        · exact h.wal f (List.IsPrefix.subset (List.takeWhile_prefix _) hf) r hr
        · simp at hr
        · exact h.wal f (List.IsSuffix.subset (List.dropWhile_suffix _) hf) r hr
  | gc =>
    cases hs
    exact ⟨h.slot, h.known, fun f hf => h.wal f (List.mem_of_mem_drop hf)⟩
  | begin_ p =>
    cases hs
    unfold begin_
    split
    · exact h
    · refine holds_onPart h p _ ?_
      intro x fs x' fs' hg e
      split at e
      · cases e; exact C.begin_ p x fs hg (by assumption)
      · cases e
  | merge p =>
    cases hs
    refine holds_onPart h p _ ?_
    intro x fs x' fs' hg e
    split at e
    · cases e; exact C.merge p x fs hg (by assumption)
    · cases e
  | fail p =>
    cases hs
    rcases hd with hd | hd
    · refine holds_onPart h p _ ?_
      intro x fs x' fs' hg e
      split at e
      · cases e; exact C.fail hd p x fs hg (by assumption)
      · cases e
    · exact (hd.1 p rfl).elim
  | apply_ p =>
    cases hs
    unfold apply_
    split
    · exact h
    · refine holds_onPart h p _ ?_
      intro x fs x' fs' hg e
      split at e
      · cases e; exact C.apply_ p x fs _ hg (by assumption)
      · cases e
  | complete p =>
    cases hs
    refine holds_onPart h p _ ?_
    intro x fs x' fs' hg e
    split at e
    · cases e; exact C.complete p x fs _ hg (by assumption)
    · cases e
  | delete p =>
    cases hs
    refine holds_onPart h p _ ?_
    intro x fs x' fs' hg e
    split at e
    · cases e; exact C.delete p x fs _ hg (by assumption)
    · cases e
  | finish p =>
    cases hs
    refine holds_onPart h p _ ?_
    intro x fs x' fs' hg e
    split at e
    · cases e; exact C.finish p x fs _ hg (by assumption)
    · cases e
  | dropFile p =>
    cases hs
    rcases hd with hd | hd
    · exact holds_dropFile C hd h p
    · exact (hd.2.1 p rfl).elim
  | dropRef p =>
    cases hs
    rcases hd with hd | hd
    · exact holds_dropRef C hd (hW hd) h p
    · exact (hd.2.2 p rfl).elim
  | crash => exact (hc rfl).elim

/-! Restarts: `G'` holds afterwards, if `G` held before. -/

structure Reopens (G G' : Nat → Slot → Prop) : Prop where
  none : ∀ p s, G p s → recover s.files = .ok none → G' p {}
  some : ∀ p s f, G p s → recover s.files = .ok (some f) → G' p { part := some { file := some f }, files := { id_ := some f } }

variable {G' : Nat → Slot → Prop}

theorem recoverAll_holds (R : Reopens G G') {db : Db} (h : Holds W G db) : ∀ (ps : List Nat) (db' : Db), recoverAll db ps = .ok db' →
    (∀ p, p ∈ ps → G' p (db'.slots p)) ∧ (∀ p, p ∉ ps → db'.slots p = db.slots p) ∧ (∀ p, p ∉ db'.known → p ∉ db.known ∧ p ∉ ps) ∧ db'.wal = db.wal
  | [], db', hr => by
    cases hr
    exact ⟨fun p hp => (by cases hp), fun p _ => rfl, fun p hp => ⟨hp, by simp⟩, rfl⟩
  | p :: ps, db', hr => by
    simp only [recoverAll] at hr
    rw [Res.bind_eq_ok] at hr
    obtain ⟨db1, h1, hr⟩ := hr
    rw [Res.bind_eq_ok] at hr
    obtain ⟨s, h2, hr⟩ := hr
    obtain ⟨i1, i2, i3, i4⟩ := recoverAll_holds R h ps db1 h1
    have hs : G' p s := by
      unfold recoverSlot at h2
      rw [Res.bind_eq_ok] at h2
      obtain ⟨r, h3, h4⟩ := h2
      cases r with
      | none => cases h4; exact R.none p _ (h.slot p) h3
      | some f => cases h4; exact R.some p _ f (h.slot p) h3
    have key : ∀ db2 : Db, db2.slots = (db1.set p s).slots → db2.known = (db1.set p s).known → db2.wal = db1.wal →
        (∀ q, q ∈ p :: ps → G' q (db2.slots q)) ∧ (∀ q, q ∉ p :: ps → db2.slots q = db.slots q) ∧
        (∀ q, q ∉ db2.known → q ∉ db.known ∧ q ∉ p :: ps) ∧ db2.wal = db.wal := by
      intro db2 e1 e2 e3
      refine ⟨?_, ?_, ?_, by rw [e3, i4]⟩
      · intro q hq
        rw [e1, set_slots]
        split
        · rename_i e; rw [e]; exact hs
        · rename_i e
          rcases List.mem_cons.1 hq with rfl | hq
          · exact (e rfl).elim
          · exact i1 q hq
      · intro q hq
        rw [e1, set_slots]
        rw [if_neg (fun e => hq (by rw [e]; exact List.mem_cons_self ..))]
        exact i2 q (fun e => hq (List.mem_cons_of_mem _ e))
      · intro q hq
        rw [e2] at hq
        simp only [Db.set] at hq
        split at hq
        · rename_i hp
          obtain ⟨a, b⟩ := i3 q hq
          refine ⟨a, ?_⟩
          intro hm
          rcases List.mem_cons.1 hm with rfl | hm
          · exact hq hp
          · exact b hm
        · simp only [List.mem_cons, not_or] at hq
          obtain ⟨a, b⟩ := i3 q hq.2
          refine ⟨a, ?_⟩
          intro hm
          rcases List.mem_cons.1 hm with rfl | hm
          · exact hq.1 rfl
          · exact b hm
    split at hr
    · cases hr; exact key _ rfl rfl rfl
    · cases hr; exact key _ rfl rfl rfl

/-- What replaying a record needs. -/
def Good (d : Bool) (Q : Event → Prop) : Rec → Prop
  | .write _ _ es => ∀ e ∈ es, Q e
  | .drop _ _ => d = true

theorem holds_replayEvent (C : Closed iv d Q G) {db : Db} (h : Holds W G db) (l : Nat) (e : Event) (he : Q e) :
    Holds W G (replayEvent iv l db e) := by
  show Holds W G (if (partOr (db.slots (partOf iv e.id))).file.any (fun f => f.lsn ≥ l) = true then db
    else db.set (partOf iv e.id)
      { db.slots (partOf iv e.id) with
        part := some
          { partOr (db.slots (partOf iv e.id)) with
            act := ({ (partOr (db.slots (partOf iv e.id))).act with
              tbl := tset (partOr (db.slots (partOf iv e.id))).act.tbl e }).follow l } })
  split
  · exact h
  · have h1 := C.put (partOf iv e.id) (db.slots (partOf iv e.id)) e (h.slot _) he rfl
    have h2 := C.follow (partOf iv e.id) _ _ l h1
    exact holds_set h _ _ h2

theorem holds_replayEvents (C : Closed iv d Q G) (l : Nat) : ∀ (es : List Event) {db : Db}, Holds W G db → (∀ e ∈ es, Q e) →
    Holds W G (es.foldl (replayEvent iv l) db)
  | [], _, h, _ => h
  | e :: es, _, h, he =>
    holds_replayEvents C l es (holds_replayEvent C h l e (he e (List.mem_cons_self ..))) (fun x hx => he x (List.mem_cons_of_mem _ hx))

theorem holds_replayRec (C : Closed iv d Q G) {db : Db} (h : Holds (Good d Q) G db) (r : Rec) (hr : Good d Q r) :
    Holds (Good d Q) G (replayRec iv db r) := by
  cases r with
  | write l n es =>
    have := holds_replayEvents C l es h hr
    exact ⟨this.slot, this.known, this.wal⟩
  | drop l p => exact holds_dropRef C hr (fun _ _ => hr) (holds_dropFile C hr h p) p

theorem holds_replayRecs (C : Closed iv d Q G) : ∀ (rs : List Rec) {db : Db}, Holds (Good d Q) G db → (∀ r ∈ rs, Good d Q r) →
    Holds (Good d Q) G (rs.foldl (replayRec iv) db)
  | [], _, h, _ => h
  | r :: rs, _, h, hr =>
    holds_replayRecs C rs (holds_replayRec C h r (hr r (List.mem_cons_self ..))) (fun x hx => hr x (List.mem_cons_of_mem _ hx))

theorem holds_replayFrom (C : Closed iv d Q G) : ∀ (n i : Nat) {db : Db}, Holds (Good d Q) G db → Holds (Good d Q) G (replayFrom iv n i db)
  | 0, _, _, h => h
  | n + 1, i, db, h => by
    unfold replayFrom
    cases hw : db.wal[i]? with
    | none => exact h
    | some f => exact holds_replayFrom C n (i + 1) (holds_replayRecs C f.2 h (h.wal f (List.mem_of_getElem? hw)))

/-- A restart. -/
theorem holds_restart (C : Closed iv d Q G') (R : Reopens G G') {db db' : Db} (h : Holds (Good d Q) G db) (hs : restart iv db = .ok db') :
    Holds (Good d Q) G' db' := by
  unfold restart at hs
  rw [Res.bind_eq_ok] at hs
  obtain ⟨db1, h1, h2⟩ := hs
  obtain ⟨i1, i2, i3, i4⟩ := recoverAll_holds R h _ _ h1
  have hh : Holds (Good d Q) G' db1 := by
    refine ⟨?_, ?_, ?_⟩
    · intro p
      by_cases hp : p ∈ db.known
      · exact i1 p hp
      · rw [i2 p hp, h.known p hp]; exact C.nil p
    · intro p hp
      obtain ⟨a, b⟩ := i3 p hp
      rw [i2 p b, h.known p a]
    · rw [i4]; exact h.wal
  split at h2
  · cases h2
    refine ⟨hh.slot, hh.known, ?_⟩
    intro f hf r hr
    simp only [List.mem_singleton] at hf
    subst hf
    simp at hr
  · cases h2
    exact holds_replayFrom C _ _ ⟨hh.slot, hh.known, hh.wal⟩

end Verif.Dur
