import Verif.Proofs.DropShade

/-! Helper lemmas for C86: what holds after every step of a history with drops. -/
namespace Verif.Dur
open Wal (Rec)
open C86 (Gone)

/-! Batches followed by drops. -/

theorem gone_nil (iv p : Nat) : Gone iv [] p := by
  intro H1 l m es H2 h
  cases H1 <;> cases h

theorem gone_tail {iv p : Nat} {r : Rec} {H : List Rec} (h : Gone iv (r :: H) p) : Gone iv H p := by
  intro H1 l m es H2 he
  exact h (r :: H1) l m es H2 (by rw [he]; rfl)

theorem gone_suffix {iv p : Nat} : ∀ {H1 H2 : List Rec}, Gone iv (H1 ++ H2) p → Gone iv H2 p := by
  intro H1
  induction H1 with
  | nil => intro H2 h; exact h
  | cons r H1 ih => intro H2 h; exact ih (gone_tail h)

theorem gone_write {iv p l m : Nat} {es : List Event} {H : List Rec} (h : Gone iv (.write l m es :: H) p)
    {e : Event} (he : e ∈ es) (hp : partOf iv e.id = p) : ∃ l', Rec.drop l' p ∈ H :=
  h [] l m es H rfl ⟨e, he, hp⟩

/-- Drops at the end keep what is gone. -/
theorem gone_append {iv p : Nat} {H ext : List Rec} (h : Gone iv H p) (hx : ∀ r ∈ ext, ∃ l q, r = .drop l q) :
    Gone iv (H ++ ext) p := by
  intro H1 l m es H2 he ht
  rcases List.append_eq_append_iff.1 he with ⟨a, e1, e2⟩ | ⟨a, e1, e2⟩
  · exfalso
    have : Rec.write l m es ∈ ext := by
      rw [e2]
      simp
    obtain ⟨_, _, h1⟩ := hx _ this
    cases h1
  · cases a with
    | nil =>
      exfalso
      have : Rec.write l m es ∈ ext := by
        rw [List.nil_append] at e2
        rw [← e2]
        simp
      obtain ⟨_, _, h1⟩ := hx _ this
      cases h1
    | cons r a =>
      rw [List.cons_append, List.cons.injEq] at e2
      obtain ⟨l', h1⟩ := h H1 l m es a (by rw [e1, e2.1]) ht
      exact ⟨l', by rw [e2.2]; simp [h1]⟩

theorem gone_drop (iv p l : Nat) (H : List Rec) : Gone iv (H ++ [.drop l p]) p := by
  intro H1 l1 m es H2 he ht
  rcases List.append_eq_append_iff.1 he with ⟨a, e1, e2⟩ | ⟨a, e1, e2⟩
  · exfalso
    cases a with
    | nil => cases e2
    | cons r a =>
      rw [List.cons_append, List.cons.injEq] at e2
      have := e2.2
      cases a <;> cases this
  · cases a with
    | nil => cases e2
    | cons r a =>
      rw [List.cons_append, List.cons.injEq] at e2
      exact ⟨l, by rw [e2.2]; simp⟩

/-- The last record does not concern the partition. -/
theorem gone_init {iv p : Nat} {H : List Rec} {r : Rec} (h : Gone iv (H ++ [r]) p) (hr : ∀ l, r ≠ .drop l p) :
    Gone iv H p := by
  intro H1 l m es H2 he ht
  obtain ⟨l', h1⟩ := h H1 l m es (H2 ++ [r]) (by rw [he]; simp) ht
  rcases List.mem_append.1 h1 with h1 | h1
  · exact ⟨l', h1⟩
  · simp only [List.mem_singleton] at h1
    exact absurd h1.symm (hr l')

theorem gone_last {iv p l m : Nat} {es : List Event} {H : List Rec} (h : Gone iv (H ++ [.write l m es]) p) :
    ∀ e ∈ es, partOf iv e.id ≠ p := by
  intro e he hp
  obtain ⟨l', h1⟩ := h H l m es [] rfl ⟨e, he, hp⟩
  cases h1

theorem gone_add {iv p l m : Nat} {es : List Event} {H : List Rec} (h : Gone iv H p)
    (hn : ∀ e ∈ es, partOf iv e.id ≠ p) : Gone iv (H ++ [.write l m es]) p := by
  intro H1 l1 m1 es1 H2 he ht
  rcases List.eq_nil_or_concat H2 with rfl | ⟨H3, r, rfl⟩
  · exfalso
    have := List.append_inj_right' he rfl
    simp only [List.cons.injEq, Rec.write.injEq, and_true] at this
    obtain ⟨e, h1, h2⟩ := ht
    rw [← this.2.2] at h1
    exact hn e h1 h2
  · rw [List.concat_eq_append] at he ⊢
    have e1 : H = H1 ++ .write l1 m1 es1 :: H3 := by
      have he' : H ++ [.write l m es] = (H1 ++ .write l1 m1 es1 :: H3) ++ [r] := by rw [he]; simp
      exact List.append_inj_left' he' rfl
    obtain ⟨l', h1⟩ := h H1 l1 m1 es1 H3 e1 ht
    exact ⟨l', by simp [h1]⟩

theorem lastOf_none {es : List Event} {k : Key} (h : ∀ e ∈ es, e.pair ≠ k) : lastOf es k = none := by
  unfold lastOf
  rw [List.filter_eq_nil_iff.2]
  · rfl
  · intro e he
    simpa using h e he

def dropsB (p : Nat) : Rec → Bool
  | .write _ _ _ => false
  | .drop _ q => q == p

def recLast (k : Key) : Rec → Option Event
  | .write _ _ es => lastOf es k
  | .drop _ _ => none

theorem version_cons (iv : Nat) (k : Key) (r : Rec) (H : List Rec) : version iv k (r :: H) =
    (version iv k H).or (if H.any (dropsB (partOf iv k.1)) then none else recLast k r) := by
  have e : (fun r : Rec => match r with | .drop _ p => p == partOf iv k.1 | _ => false) = dropsB (partOf iv k.1) := by
    funext r
    cases r <;> rfl
  conv => lhs; unfold version
  rw [← e]
  cases version iv k H with
  | some e => rfl
  | none => cases r <;> rfl

theorem version_gone {iv : Nat} {k : Key} : ∀ {H : List Rec}, Gone iv H (partOf iv k.1) → version iv k H = none := by
  intro H
  induction H with
  | nil => intro _; rfl
  | cons r H ih =>
    intro h
    rw [version_cons, ih (gone_tail h), Option.none_or]
    split
    · rfl
    · rename_i hd
      cases r with
      | drop l p => rfl
      | write l m es =>
        apply lastOf_none
        intro e he hk
        have hp : partOf iv e.id = partOf iv k.1 := by rw [← hk]; rfl
        obtain ⟨l', h1⟩ := gone_write h he hp
        apply hd
        rw [List.any_eq_true]
        exact ⟨_, h1, by simp [dropsB]⟩

theorem lastOf_fil {L : Nat → Bool} {iv : Nat} {k : Key} (hL : L (partOf iv k.1) = true) (es : List Event) :
    lastOf (fil L iv es) k = lastOf es k := by
  unfold lastOf fil
  rw [List.filter_filter]
  congr 1
  apply List.filter_congr
  intro e _
  by_cases hk : e.pair = k
  · have hp : partOf iv e.id = partOf iv k.1 := by rw [← hk]; rfl
    rw [hp, hL, Bool.and_true]
  · have : (e.pair == k) = false := by simpa using hk
    rw [this, Bool.false_and]

theorem version_prune {L : Nat → Bool} {iv : Nat} {k : Key} (hL : L (partOf iv k.1) = true) : ∀ {H : List Rec},
    (∀ l p, Rec.drop l p ∈ H → L p = false) → version iv k (pruneAll L iv H) = version iv k H := by
  intro H
  induction H with
  | nil => intro _; rfl
  | cons r H ih =>
    intro hd
    have hd' : ∀ l p, Rec.drop l p ∈ H → L p = false := fun l p h => hd l p (by simp [h])
    have hno : ¬ H.any (dropsB (partOf iv k.1)) = true := by
      rw [List.any_eq_true]
      rintro ⟨r, hr, h1⟩
      cases r with
      | write l m es => cases h1
      | drop l p =>
        simp only [dropsB, beq_iff_eq] at h1
        have := hd' l p hr
        rw [h1, hL] at this
        cases this
    have hno' : ¬ (pruneAll L iv H).any (dropsB (partOf iv k.1)) = true := by
      rw [List.any_eq_true]
      rintro ⟨r, hr, h1⟩
      cases r with
      | write l m es => cases h1
      | drop l p =>
        obtain ⟨r', _, h2⟩ := List.mem_filterMap.1 hr
        cases r' with
        | drop _ _ => cases h2
        | write l m es =>
          unfold prune at h2
          dsimp only at h2
          split at h2 <;> cases h2
    rw [version_cons, if_neg hno, ← ih hd']
    have hc : ∀ r, pruneAll L iv (r :: H) = pruneAll L iv [r] ++ pruneAll L iv H := fun r => pruneAll_append L iv [r] H
    rw [hc]
    cases r with
    | drop l p =>
      show version iv k (pruneAll L iv H) = Option.or _ none
      rw [Option.or_none]
    | write l m es =>
      have hr : recLast k (.write l m es) = lastOf (fil L iv es) k := (lastOf_fil hL es).symm
      rw [hr]
      by_cases hf : fil L iv es = []
      · have e : pruneAll L iv [.write l m es] = [] := by simp [pruneAll, prune, hf]
        rw [e, hf]
        show version iv k (pruneAll L iv H) = Option.or _ none
        rw [Option.or_none]
      · have e : pruneAll L iv [.write l m es] = [.write l (fil L iv es).length (fil L iv es)] := by
          simp [pruneAll, prune, hf]
        rw [e]
        show version iv k (_ :: pruneAll L iv H) = _
        rw [version_cons, if_neg hno']
        rfl

/-! Partitions without files. -/

structure Blank (s : Slot) : Prop where
  id_ : s.files.id_ = none
  complete : s.files.complete = none
  part : ∀ x, s.part = some x → x.phase = .idle ∧ x.file = none

theorem recOne_blank {iv q : Nat} {s : Slot} (h : Blank s) (r : Rec) : Blank (recOne iv q s r) := by
  cases r with
  | drop l p =>
    unfold recOne
    dsimp only
    split
    · unfold dropOne
      cases hx : s.part with
      | none => exact h
      | some x =>
        dsimp only
        split
        · exact ⟨rfl, h.complete, nofun⟩
        · exact h
    · exact h
  | write l m es =>
    unfold recOne
    dsimp only
    induction es generalizing s with
    | nil => exact h
    | cons e es ih =>
      rw [List.map_cons, List.foldl_cons]
      apply ih
      unfold replayOne
      split
      · split
        · exact h
        · refine ⟨h.id_, h.complete, ?_⟩
          intro x hx
          cases hx
          dsimp only
          unfold partOr
          cases hy : s.part with
          | none => exact ⟨rfl, rfl⟩
          | some y => exact h.part y hy
      · exact h

theorem recOne_miss {iv q l m : Nat} {es : List Event} (s : Slot) (h : ∀ e ∈ es, partOf iv e.id ≠ q) :
    recOne iv q s (.write l m es) = s := by
  unfold recOne
  dsimp only
  induction es with
  | nil => rfl
  | cons e es ih =>
    rw [List.map_cons, List.foldl_cons, replayOne_ne iv q s (l, e) (h e (by simp))]
    exact ih fun e he => h e (by simp [he])

theorem recs_gone {iv q : Nat} : ∀ {rs : List Rec} {s : Slot}, Gone iv rs q → Blank s →
    (s.part = none ∨ ∃ l, Rec.drop l q ∈ rs) → (rs.foldl (recOne iv q) s).part = none := by
  intro rs
  induction rs with
  | nil =>
    intro s _ _ h
    rcases h with h | ⟨l, h⟩
    · exact h
    · cases h
  | cons r rs ih =>
    intro s hg hb h
    rw [List.foldl_cons]
    apply ih (gone_tail hg) (recOne_blank hb r)
    cases r with
    | write l m es =>
      by_cases ht : ∃ e ∈ es, partOf iv e.id = q
      · obtain ⟨e, h1, h2⟩ := ht
        exact .inr (gone_write hg h1 h2)
      · rcases h with h | ⟨l', h⟩
        · left
          rw [recOne_miss s fun e he hp => ht ⟨e, he, hp⟩]
          exact h
        · right
          rcases List.mem_cons.1 h with h | h
          · cases h
          · exact ⟨l', h⟩
    | drop l p =>
      by_cases hp : q = p
      · left
        unfold recOne
        dsimp only
        rw [if_pos hp]
        unfold dropOne
        cases hx : s.part with
        | none => exact hx
        | some x =>
          dsimp only
          rw [if_pos (hb.part x hx).1]
      · rcases h with h | ⟨l', h⟩
        · left
          unfold recOne
          dsimp only
          rw [if_neg hp]
          exact h
        · right
          rcases List.mem_cons.1 h with h | h
          · cases h
            exact absurd rfl hp
          · exact ⟨l', h⟩

/-! The files of a partition. -/

structure SlotD (s : Slot) : Prop where
  disk : DiskOK (partOr s) s.files
  after : ∀ f, (partOr s).phase = .applied f ∨ (partOr s).phase = .completed f ∨ (partOr s).phase = .deleted f →
    (partOr s).file = some f

theorem slotD_empty : SlotD {} := ⟨⟨rfl, rfl⟩, fun _ h => by rcases h with h | h | h <;> cases h⟩

theorem putOne_D {iv q : Nat} {s : Slot} (h : SlotD s) (e : Event) : SlotD (putOne iv q s e) := by
  unfold putOne
  split
  · exact ⟨h.disk, h.after⟩
  · exact h

theorem followOne_D {iv q l : Nat} {s : Slot} (h : SlotD s) (e : Event) : SlotD (followOne iv q l s e) := by
  unfold followOne
  split
  · cases hx : s.part with
    | none => exact h
    | some x =>
      have h1 := h.disk
      have h2 := h.after
      rw [partOr_some hx] at h1 h2
      exact ⟨h1, h2⟩
  · exact h

theorem recOne_D {iv q : Nat} {s : Slot} (h : SlotD s) (r : Rec) : SlotD (recOne iv q s r) := by
  cases r with
  | drop l p =>
    unfold recOne
    dsimp only
    split
    · unfold dropOne
      cases hx : s.part with
      | none => exact h
      | some x =>
        dsimp only
        split
        · rename_i hi
          have h1 := h.disk
          rw [partOr_some hx] at h1
          unfold DiskOK at h1
          rw [hi] at h1
          exact ⟨⟨h1.1, rfl⟩, fun _ h => by rcases h with h | h | h <;> cases h⟩
        · exact h
    · exact h
  | write l m es =>
    unfold recOne
    dsimp only
    induction es generalizing s with
    | nil => exact h
    | cons e es ih =>
      rw [List.map_cons, List.foldl_cons]
      apply ih
      unfold replayOne
      split
      · split
        · exact h
        · exact ⟨h.disk, h.after⟩
      · exact h

theorem recSlot_D (s : Slot) : SlotD (recSlot s) := by
  unfold recSlot
  cases dur s.files with
  | none => exact slotD_empty
  | some f => exact ⟨⟨rfl, rfl⟩, fun _ h => by rcases h with h | h | h <;> cases h⟩

theorem foldl_keep {α β : Type} {P : α → Prop} {g : α → β → α} (hg : ∀ a b, P a → P (g a b)) : ∀ (xs : List β) {a : α},
    P a → P (xs.foldl g a) := by
  intro xs
  induction xs with
  | nil => intro a h; exact h
  | cons x xs ih => intro a h; exact ih (hg a x h)

/-- A change of a partition that keeps its files in order. -/
def Keeps (f : Part → Files → Option (Part × Files)) : Prop :=
  ∀ x fs x' fs', SlotD { part := some x, files := fs } → f x fs = some (x', fs') → SlotD { part := some x', files := fs' }

theorem partStep_D {f : Part → Files → Option (Part × Files)} (hf : Keeps f) {s : Slot} (h : SlotD s) :
    SlotD (partStep f s) := by
  unfold partStep
  cases hx : s.part with
  | none => exact h
  | some x =>
    dsimp only
    cases hr : f x s.files with
    | none => exact h
    | some r =>
      obtain ⟨x', fs'⟩ := r
      apply hf x s.files x' fs' _ hr
      have e : ({ part := some x, files := s.files } : Slot) = s := by rw [← hx]
      rw [e]
      exact h

/-! All that holds. -/

structure All (L : Nat → Bool) (iv : Nat) (db : Db) (hist : List Rec) : Prop where
  shade : ∃ sh n, Sh L iv db sh ∧ Inv0 iv sh (pruneAll L iv hist) n
  disk : ∀ p, SlotD (db.slots p)
  known : ∀ p, p ∉ db.known → db.slots p = {}
  drops : ∀ l p, Rec.drop l p ∈ hist → L p = false
  logs : ∀ l p, Rec.drop l p ∈ db.wal.flatMap (·.2) → L p = false
  none_ : ∀ p, Gone iv hist p → (db.slots p).part = none
  gone : ∀ p, Gone iv hist p → Gone iv (db.wal.flatMap (·.2)) p

theorem on_all {L : Nat → Bool} {iv p : Nat} {db : Db} {hist : List Rec} (h : All L iv db hist)
    {f : Part → Files → Option (Part × Files)} (hf : Keeps f)
    (hi : L p = true → ∀ sh n, Sh L iv db sh → Inv0 iv sh (pruneAll L iv hist) n → Inv0 iv (onPart sh p f) (pruneAll L iv hist) n) :
    All L iv (onPart db p f) hist := by
  obtain ⟨sh, n, h1, h2⟩ := h.shade
  obtain ⟨a1, a2, a3, a4⟩ := onPart_rest db p f
  constructor
  · cases hp : L p with
    | true => exact ⟨_, n, h1.live hp f, hi hp sh n h1 h2⟩
    | false => exact ⟨sh, n, h1.dead hp f, h2⟩
  · intro q
    rw [onPart_slots]
    split
    · exact partStep_D hf (h.disk p)
    · exact h.disk q
  · exact onPart_known h.known p f
  · exact h.drops
  · rw [a2]
    exact h.logs
  · intro q hq
    rw [onPart_slots]
    have := h.none_ q hq
    split
    · rename_i e
      rw [e] at this
      unfold partStep
      rw [this]
      exact this
    · exact this
  · rw [a2]
    exact h.gone

theorem plus_flat {db : Db} (hc : CurLast db) (ext : List Rec) :
    (plus db ext).flatMap (·.2) = db.wal.flatMap (·.2) ++ ext := by
  obtain ⟨w, rs, e1, e2⟩ := hc
  rw [plus_last e1 e2, e1]
  simp

theorem log_all {L : Nat → Bool} {iv : Nat} {db : Db} {hist : List Rec} (h : All L iv db hist) (hp : db.pending = none)
    (es : List Event) : All L iv (log iv db es) (hist ++ [.write (db.lsn + 1) es.length es]) := by
  obtain ⟨sh, n, h1, h2⟩ := h.shade
  obtain ⟨a1, a2, a3, a4, a5, a6⟩ := log_rest hp (iv := iv) es
  have hc := h1.last h2
  constructor
  · obtain ⟨sh', g1, g2⟩ := log_shade h1 h2 hp es
    rw [pruneAll_append]
    exact ⟨sh', n, g1, g2⟩
  · intro q
    rw [a1]
    exact foldl_keep (P := SlotD) (fun s e hs => putOne_D hs e) es (h.disk q)
  · exact a6 h.known
  · intro l p hm
    rcases List.mem_append.1 hm with hm | hm
    · exact h.drops l p hm
    · simp at hm
  · intro l p hm
    rw [a2, plus_flat hc] at hm
    rcases List.mem_append.1 hm with hm | hm
    · exact h.logs l p hm
    · simp at hm
  · intro p hg
    have hm := gone_last hg
    rw [a1]
    have e : es.foldl (putOne iv p) (db.slots p) = db.slots p := by
      generalize db.slots p = s
      clear a1 a2 a3 a4 a5 a6 hg
      induction es with
      | nil => rfl
      | cons e es ih =>
        rw [List.foldl_cons, putOne_ne iv p s e (hm e (by simp))]
        exact ih fun e he => hm e (by simp [he])
    rw [e]
    exact h.none_ p (gone_init hg fun l => by simp)
  · intro p hg
    rw [a2, plus_flat hc]
    exact gone_add (h.gone p (gone_init hg fun l => by simp)) (gone_last hg)

theorem commit_all {L : Nat → Bool} {iv : Nat} {db : Db} {hist : List Rec} (h : All L iv db hist) :
    All L iv (commit iv db) hist := by
  obtain ⟨sh, n, h1, h2⟩ := h.shade
  obtain ⟨sh', g1, g2⟩ := commit_shade h1 h2
  have hs : ∀ q, ∃ (l : Nat) (es : List Event), (commit iv db).slots q = es.foldl (followOne iv q l) (db.slots q) := by
    intro q
    unfold commit
    split
    · exact ⟨0, [], rfl⟩
    · rename_i l es _
      exact ⟨l, es, follows_slots iv q l es db⟩
  have hw : (commit iv db).wal = db.wal := by
    unfold commit
    split
    · rfl
    · exact (follows_rest _ _ _ _).1
  constructor
  · exact ⟨sh', n, g1, g2⟩
  · intro q
    obtain ⟨l, es, e⟩ := hs q
    rw [e]
    exact foldl_keep (P := SlotD) (fun s e hs => followOne_D hs e) es (h.disk q)
  · unfold commit
    split
    · exact h.known
    · exact (follows_rest _ _ _ _).2.2.2 h.known
  · exact h.drops
  · rw [hw]
    exact h.logs
  · intro q hq
    obtain ⟨l, es, e⟩ := hs q
    rw [e]
    exact foldl_keep (P := fun s : Slot => s.part = none) (g := followOne iv q l)
      (fun s e hs => by unfold followOne; split <;> simp [hs]) es (h.none_ q hq)
  · rw [hw]
    exact h.gone

theorem rotate_all {L : Nat → Bool} {iv : Nat} {db : Db} {hist : List Rec} (h : All L iv db hist)
    (ha : db.cur ≤ db.lsn ∨ (db.cur, []) ∈ db.wal) : ∃ db', rotate db = .ok db' ∧ All L iv db' hist := by
  obtain ⟨sh, n, h1, h2⟩ := h.shade
  obtain ⟨db', sh', r1, r2, r3, r4, r5, r6, r7⟩ := rotate_shade h1 h2 ha
  refine ⟨db', r1, ⟨sh', n, r2, r3⟩, ?_, ?_, h.drops, ?_, ?_, ?_⟩
  · rw [r4]
    exact h.disk
  · rw [r4, r5]
    exact h.known
  · rw [r7]
    exact h.logs
  · rw [r4]
    exact h.none_
  · rw [r7]
    exact h.gone

theorem gc_all {L : Nat → Bool} {iv : Nat} {db : Db} {hist : List Rec} (h : All L iv db hist) (hp : db.pending = none)
    (ho : ∀ p x, (db.slots p).part = some x → x.phase.open_ = false) : All L iv (gc db) hist := by
  obtain ⟨sh, n, h1, h2⟩ := h.shade
  obtain ⟨sh', n', r1, r2⟩ := gc_shade h1 h2 h.known hp ho
  have hw : ∃ a, db.wal.flatMap (·.2) = a ++ (gc db).wal.flatMap (·.2) := by
    refine ⟨(db.wal.take (Wal.gcCount (lsnMin db) (db.wal.map (·.1)))).flatMap (·.2), ?_⟩
    show _ = _ ++ (List.drop _ _).flatMap _
    rw [← List.flatMap_append, List.take_append_drop]
  obtain ⟨a, hw⟩ := hw
  refine ⟨⟨sh', n', r1, r2⟩, h.disk, h.known, h.drops, ?_, h.none_, ?_⟩
  · intro l p hm
    apply h.logs l p
    rw [hw]
    exact List.mem_append_right a hm
  · intro p hg
    have := h.gone p hg
    rw [hw] at this
    exact gone_suffix this

theorem dropFile_keeps : Keeps fun x fs =>
    if x.phase = .idle then some ({ x with file := none }, { fs with id_ := none }) else none := by
  intro x fs x' fs' h hf
  dsimp only at hf
  split at hf
  · rename_i hi
    cases hf
    have h1 := h.disk
    dsimp only [partOr] at h1
    unfold DiskOK at h1
    rw [hi] at h1
    constructor
    · show DiskOK { x with file := none } _
      unfold DiskOK
      dsimp only
      rw [hi]
      exact ⟨h1.1, rfl⟩
    · intro f h2
      dsimp only [partOr] at h2
      rw [hi] at h2
      rcases h2 with h2 | h2 | h2 <;> cases h2
  · cases hf

theorem dropRef_all {L : Nat → Bool} {iv p : Nat} {db : Db} {hist : List Rec} (h : All L iv db hist) (hp : L p = false) :
    All L iv (dropRef iv db p) (hist ++ if (dropRef iv db p).lsn = db.lsn then [] else [.drop (db.lsn + 1) p]) := by
  generalize hd : dropRef iv db p = d
  unfold dropRef at hd
  by_cases hh : held iv db p = true
  · rw [if_pos hh] at hd
    rw [← hd, if_pos rfl, List.append_nil]
    exact h
  · rw [if_neg hh] at hd
    cases hx : (db.slots p).part with
    | none =>
      rw [hx] at hd
      dsimp only at hd
      rw [← hd, if_pos rfl, List.append_nil]
      exact h
    | some x =>
      rw [hx] at hd
      dsimp only at hd
      by_cases hi : x.phase = .idle ∧ x.file = none
      · rw [if_pos hi] at hd
        rw [← hd]
        obtain ⟨sh, n, h1, h2⟩ := h.shade
        have hc := h1.last h2
        have hn : ¬ ((db.set p { part := none, files := (db.slots p).files }).append (.drop (db.lsn + 1) p)).lsn = db.lsn := by
          show ¬ db.lsn + 1 = db.lsn
          omega
        rw [if_neg hn]
        have hw : ((db.set p { part := none, files := (db.slots p).files }).append (.drop (db.lsn + 1) p)).wal =
            plus db [.drop (db.lsn + 1) p] := rfl
        have hsl : ∀ q, ((db.set p { part := none, files := (db.slots p).files }).append (.drop (db.lsn + 1) p)).slots q =
            if q = p then { part := none, files := (db.slots p).files } else db.slots q := fun q => rfl
        constructor
        · refine ⟨{ sh with lsn := db.lsn + 1 }, n, ?_, ?_⟩
          · constructor
            · intro q
              rw [hsl]
              dsimp only
              rw [h1.slots]
              by_cases hq : q = p
              · rw [hq, hp, if_neg (by simp), if_neg (by simp)]
              · rw [if_neg hq]
            · rw [hw, h1.plus]
              show sh.wal = plus sh []
              rw [plus_nil]
            · exact h1.pending
            · rfl
            · exact h1.cur
          · rw [pruneAll_append]
            have e : pruneAll L iv [.drop (db.lsn + 1) p] = [] := rfl
            rw [e, List.append_nil]
            apply bump_inv0 h2
            rw [h1.lsn]
            omega
        · intro q
          rw [hsl]
          split
          · have h3 := (h.disk p).disk
            rw [partOr_some hx] at h3
            unfold DiskOK at h3
            rw [hi.1] at h3
            exact ⟨⟨h3.1, by rw [h3.2]; exact hi.2⟩, fun _ h => by rcases h with h | h | h <;> cases h⟩
          · exact h.disk q
        · exact known_set h.known p _
        · intro l q hm
          rcases List.mem_append.1 hm with hm | hm
          · exact h.drops l q hm
          · simp only [List.mem_singleton, Rec.drop.injEq] at hm
            rw [hm.2]
            exact hp
        · intro l q hm
          rw [hw, plus_flat hc] at hm
          rcases List.mem_append.1 hm with hm | hm
          · exact h.logs l q hm
          · simp only [List.mem_singleton, Rec.drop.injEq] at hm
            rw [hm.2]
            exact hp
        · intro q hg
          rw [hsl]
          by_cases hq : q = p
          · rw [if_pos hq]
          · rw [if_neg hq]
            exact h.none_ q (gone_init hg fun l hc => by cases hc; exact hq rfl)
        · intro q hg
          rw [hw, plus_flat hc]
          by_cases hq : q = p
          · rw [hq]
            exact gone_drop iv p _ _
          · exact gone_append (h.gone q (gone_init hg fun l hc => by cases hc; exact hq rfl)) (by simp)
      · rw [if_neg hi] at hd
        rw [← hd, if_pos rfl, List.append_nil]
        exact h

theorem crash_all {L : Nat → Bool} {iv : Nat} {db : Db} {hist : List Rec} (h : All L iv db hist)
    (ha : ∀ db', restart iv db = .ok db' → db.lsn ≤ db'.lsn) : ∃ db', restart iv db = .ok db' ∧ All L iv db' hist := by
  obtain ⟨sh, n, h1, h2⟩ := h.shade
  have hc := h1.last h2
  obtain ⟨db', ext, ext', r1, r2, r3, r4, r5, r6, r7, r8⟩ := restart_spec (iv := iv) (fun p => (h.disk p).disk) h.known hc
  obtain ⟨sh', g1, g2⟩ := restart_shade h1 h2 (fun p => (h.disk p).disk) h.known h.logs r1 (ha db' r1)
  have hdrop : ∀ {x}, Again (db.wal.flatMap (·.2)) x → ∀ r ∈ x, ∃ l q, r = Rec.drop l q := by
    intro x hx r hr
    obtain ⟨l, l', p, _, e⟩ := hx r hr
    exact ⟨l', p, e⟩
  refine ⟨db', r1, ⟨sh', n, g1, g2⟩, ?_, r8, h.drops, ?_, ?_, ?_⟩
  · intro q
    rw [r4]
    exact foldl_keep (P := SlotD) (fun s r hs => recOne_D hs r) _ (recSlot_D _)
  · intro l p hm
    rw [r7, plus_flat hc] at hm
    rcases List.mem_append.1 hm with hm | hm
    · exact h.logs l p hm
    · obtain ⟨l1, l2, p', e1, e2⟩ := r3 _ hm
      cases e2
      exact h.logs _ _ e1
  · intro q hg
    rw [r4]
    have hd := (h.disk q).disk
    rw [partOr_none (h.none_ q hg)] at hd
    have hr : recSlot (db.slots q) = {} := by
      unfold recSlot dur
      rw [show (db.slots q).files.id_ = none from hd.2, show (db.slots q).files.complete = none from hd.1]
    rw [hr]
    exact recs_gone (gone_append (h.gone q hg) (hdrop r2)) ⟨rfl, rfl, nofun⟩ (.inl rfl)
  · intro q hg
    rw [r7, plus_flat hc]
    exact gone_append (h.gone q hg) (hdrop r3)

/-! Refreshes. -/

theorem begin_keeps : Keeps fun x fs =>
    if x.phase = .idle then some ({ x with act := x.prev, prev := x.act, phase := .begun }, fs) else none := by
  intro x fs x' fs' h hf
  dsimp only at hf
  split at hf
  · rename_i hi
    cases hf
    have h1 := h.disk
    dsimp only [partOr] at h1
    unfold DiskOK at h1
    rw [hi] at h1
    exact ⟨h1, fun _ h => by rcases h with h | h | h <;> cases h⟩
  · cases hf

theorem merge_keeps : Keeps fun x fs =>
    if x.phase = .begun then some ({ x with phase := .merged (mergeFile x) }, { fs with incomplete := true }) else none := by
  intro x fs x' fs' h hf
  dsimp only at hf
  split at hf
  · rename_i hi
    cases hf
    have h1 := h.disk
    dsimp only [partOr] at h1
    unfold DiskOK at h1
    rw [hi] at h1
    exact ⟨h1, fun _ h => by rcases h with h | h | h <;> cases h⟩
  · cases hf

theorem apply_keeps : Keeps fun x fs =>
    match x.phase with
    | .merged f => some ({ file := some f, act := x.act, prev := {}, phase := .applied f }, fs)
    | _ => none := by
  intro x fs x' fs' h hf
  dsimp only at hf
  split at hf
  · rename_i f hi
    cases hf
    have h1 := h.disk
    dsimp only [partOr] at h1
    unfold DiskOK at h1
    rw [hi] at h1
    exact ⟨h1.1, fun _ h => by rcases h with h | h | h <;> cases h; rfl⟩
  · cases hf

theorem complete_keeps : Keeps fun x fs =>
    match x.phase with
    | .applied f => some ({ x with phase := .completed f }, { fs with incomplete := false, complete := some f })
    | _ => none := by
  intro x fs x' fs' h hf
  dsimp only at hf
  split at hf
  · rename_i f hi
    cases hf
    exact ⟨⟨rfl, rfl⟩, fun _ h' => by rcases h' with h' | h' | h' <;> cases h'; exact h.after f (.inl hi)⟩
  · cases hf

theorem delete_keeps : Keeps fun x fs =>
    match x.phase with
    | .completed f => some ({ x with phase := .deleted f }, { fs with id_ := none })
    | _ => none := by
  intro x fs x' fs' h hf
  dsimp only at hf
  split at hf
  · rename_i f hi
    cases hf
    have h1 := h.disk
    dsimp only [partOr] at h1
    unfold DiskOK at h1
    rw [hi] at h1
    exact ⟨⟨rfl, h1.1, h1.2⟩, fun _ h' => by rcases h' with h' | h' | h' <;> cases h'; exact h.after f (.inr (.inl hi))⟩
  · cases hf

theorem finish_keeps : Keeps fun x fs =>
    match x.phase with
    | .deleted f => some ({ x with phase := .idle }, { fs with id_ := some f, complete := none })
    | _ => none := by
  intro x fs x' fs' h hf
  dsimp only at hf
  split at hf
  · rename_i f hi
    cases hf
    exact ⟨⟨rfl, (h.after f (.inr (.inr hi))).symm⟩, fun _ h' => by rcases h' with h' | h' | h' <;> cases h'⟩
  · cases hf

/-! Histories. -/

theorem step_all {L : Nat → Bool} {iv : Nat} {db : Db} {hist : List Rec} {op : Op} (h : All L iv db hist)
    (ha : C86.Allowed iv db op) (hL : ∀ p, op = .dropFile p ∨ op = .dropRef p → L p = false) :
    ∃ db', step iv db op = .ok db' ∧ All L iv db' (hist ++ newRecs db db' op) := by
  cases op with
  | log es =>
    refine ⟨_, rfl, ?_⟩
    cases hp : db.pending with
    | none =>
      have e : ∀ d, newRecs db d (.log es) = [.write (db.lsn + 1) es.length es] := by
        intro d
        simp [newRecs, hp]
      rw [e]
      exact log_all h hp es
    | some x =>
      have e : ∀ d, newRecs db d (.log es) = [] := by
        intro d
        simp [newRecs, hp]
      have e2 : log iv db es = db := by
        unfold log
        rw [hp]
      rw [e, e2, List.append_nil]
      exact h
  | commit =>
    refine ⟨_, rfl, ?_⟩
    rw [show newRecs db _ .commit = [] from rfl, List.append_nil]
    exact commit_all h
  | rotate =>
    obtain ⟨db', h1, h2⟩ := rotate_all h ha
    refine ⟨db', h1, ?_⟩
    rw [show newRecs db _ .rotate = [] from rfl, List.append_nil]
    exact h2
  | gc =>
    refine ⟨_, rfl, ?_⟩
    rw [show newRecs db _ .gc = [] from rfl, List.append_nil]
    exact gc_all h ha.1 ha.2
  | begin_ p =>
    refine ⟨_, rfl, ?_⟩
    rw [show newRecs db _ (.begin_ p) = [] from rfl, List.append_nil]
    unfold Dur.begin_
    by_cases hh : held iv db p = true
    · rw [if_pos hh]
      exact h
    · rw [if_neg hh]
      refine on_all h begin_keeps fun hp sh n h1 h2 => ?_
      have := begin_inv0 h2 p
      unfold Dur.begin_ at this
      rw [h1.held hp, if_neg hh] at this
      exact this
  | merge p =>
    refine ⟨_, rfl, ?_⟩
    rw [show newRecs db _ (.merge p) = [] from rfl, List.append_nil]
    exact on_all h merge_keeps fun hp sh n h1 h2 => merge_inv0 h2 p
  | fail p => exact ha.elim
  | apply_ p =>
    refine ⟨_, rfl, ?_⟩
    rw [show newRecs db _ (.apply_ p) = [] from rfl, List.append_nil]
    unfold Dur.apply_
    by_cases hh : held iv db p = true
    · rw [if_pos hh]
      exact h
    · rw [if_neg hh]
      refine on_all h apply_keeps fun hp sh n h1 h2 => ?_
      have := apply_inv0 h2 p
      unfold Dur.apply_ at this
      rw [h1.held hp, if_neg hh] at this
      exact this
  | complete p =>
    refine ⟨_, rfl, ?_⟩
    rw [show newRecs db _ (.complete p) = [] from rfl, List.append_nil]
    exact on_all h complete_keeps fun hp sh n h1 h2 => complete_inv0 h2 p
  | delete p =>
    refine ⟨_, rfl, ?_⟩
    rw [show newRecs db _ (.delete p) = [] from rfl, List.append_nil]
    exact on_all h delete_keeps fun hp sh n h1 h2 => delete_inv0 h2 p
  | finish p =>
    refine ⟨_, rfl, ?_⟩
    rw [show newRecs db _ (.finish p) = [] from rfl, List.append_nil]
    exact on_all h finish_keeps fun hp sh n h1 h2 => finish_inv0 h2 p
  | dropFile p =>
    refine ⟨_, rfl, ?_⟩
    rw [show newRecs db _ (.dropFile p) = [] from rfl, List.append_nil]
    unfold Dur.dropFile
    by_cases hh : held iv db p = true
    · rw [if_pos hh]
      exact h
    · rw [if_neg hh]
      refine on_all h dropFile_keeps fun hp sh n h1 h2 => ?_
      rw [hL p (.inl rfl)] at hp
      cases hp
  | dropRef p => exact ⟨_, rfl, dropRef_all h (hL p (.inr rfl))⟩
  | crash =>
    obtain ⟨db', h1, h2⟩ := crash_all h ha
    refine ⟨db', h1, ?_⟩
    rw [show newRecs db _ .crash = [] from rfl, List.append_nil]
    exact h2

theorem run_all {L : Nat → Bool} {iv : Nat} : ∀ (ops : List Op) {db : Db} {hist : List Rec}, All L iv db hist →
    C86.Safe iv db ops → (∀ p, .dropFile p ∈ ops ∨ .dropRef p ∈ ops → L p = false) →
    ∃ db' hist', runH iv db hist ops = .ok (db', hist') ∧ All L iv db' hist' := by
  intro ops
  induction ops with
  | nil =>
    intro db hist h _ _
    exact ⟨db, hist, rfl, h⟩
  | cons op ops ih =>
    intro db hist h hs hL
    obtain ⟨db1, h1, h2⟩ := step_all h hs.1 fun p hp => hL p (by
      rcases hp with hp | hp
      · exact .inl (by simp [hp])
      · exact .inr (by simp [hp]))
    obtain ⟨db2, hist2, h3, h4⟩ := ih h2 (hs.2 db1 h1) fun p hp => hL p (by
      rcases hp with hp | hp
      · exact .inl (by simp [hp])
      · exact .inr (by simp [hp]))
    refine ⟨db2, hist2, ?_, h4⟩
    unfold runH
    rw [h1, Res.bind_ok, ← h3]
    cases op <;> rfl

theorem init_all (L : Nat → Bool) (iv : Nat) : All L iv init [] := by
  refine ⟨⟨init, 0, ?_, (init_inv iv).toInv0⟩, fun _ => slotD_empty, fun _ _ => rfl, nofun, nofun, fun _ _ => rfl,
    fun p _ => gone_nil iv p⟩
  refine ⟨?_, rfl, rfl, rfl, rfl⟩
  intro p
  split <;> rfl

theorem view_all {L : Nat → Bool} {iv : Nat} {db : Db} {hist : List Rec} (h : All L iv db hist) (k : Key)
    (hk : L (partOf iv k.1) = true ∨ Gone iv hist (partOf iv k.1)) : view iv db k = content iv hist k := by
  rcases hk with hk | hk
  · obtain ⟨sh, n, h1, h2⟩ := h.shade
    have e1 : view iv db k = view iv sh k := by
      unfold view
      rw [h1.slots, if_pos hk]
    rw [e1, view_content0 h2]
    unfold content
    rw [version_prune hk h.drops]
  · unfold content
    rw [version_gone hk]
    unfold view
    rw [h.none_ _ hk]
    rfl

/-! Deciding that a concrete history is safe. -/

def dropAllowedB (iv : Nat) (db : Db) : Op → Bool
  | .gc => db.pending.isNone && db.known.all fun p =>
    match (db.slots p).part with
    | none => true
    | some x => !x.phase.open_
  | .fail _ => false
  | .rotate => decide (db.cur ≤ db.lsn) || db.wal.contains (db.cur, [])
  | .crash =>
    match restart iv db with
    | .ok db' => decide (db.lsn ≤ db'.lsn)
    | _ => true
  | _ => true

def dropSafeB (iv : Nat) : List Op → Db → Bool
  | [], _ => true
  | op :: ops, db =>
    dropAllowedB iv db op &&
    match step iv db op with
    | .ok db' => dropSafeB iv ops db'
    | _ => true

theorem dropAllowed_of {iv : Nat} {db : Db} (hk : ∀ p, p ∉ db.known → db.slots p = {}) {op : Op}
    (h : dropAllowedB iv db op = true) : C86.Allowed iv db op := by
  cases op with
  | gc =>
    simp only [dropAllowedB, Bool.and_eq_true, Option.isNone_iff_eq_none, List.all_eq_true] at h
    refine ⟨h.1, ?_⟩
    intro p x hx
    by_cases hp : p ∈ db.known
    · have := h.2 p hp
      rw [hx] at this
      simpa using this
    · rw [hk p hp] at hx
      cases hx
  | fail _ => cases h
  | rotate =>
    simp only [dropAllowedB, Bool.or_eq_true, decide_eq_true_eq, List.contains_iff_mem] at h
    exact h
  | crash =>
    intro db' hr
    simp only [dropAllowedB, hr, decide_eq_true_eq] at h
    exact h
  | _ => trivial

theorem dropSafe_of {iv : Nat} : ∀ (ops : List Op) {db : Db} {hist : List Rec}, All (fun _ => false) iv db hist →
    dropSafeB iv ops db = true → C86.Safe iv db ops := by
  intro ops
  induction ops with
  | nil => intro db hist _ _; trivial
  | cons op ops ih =>
    intro db hist h hs
    unfold dropSafeB at hs
    rw [Bool.and_eq_true] at hs
    have ha := dropAllowed_of h.known hs.1
    refine ⟨ha, ?_⟩
    intro db' hd
    obtain ⟨db2, h1, h2⟩ := step_all h ha fun _ _ => rfl
    rw [hd] at h1
    cases h1
    have h3 := hs.2
    rw [hd] at h3
    exact ih h2 h3

theorem dropSafe_init {iv : Nat} {ops : List Op} (h : dropSafeB iv ops init = true) : C86.Safe iv init ops :=
  dropSafe_of ops (init_all _ iv) h

end Verif.Dur
