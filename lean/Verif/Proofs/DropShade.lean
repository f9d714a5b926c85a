import Verif.Proofs.C86

/-! Helper definitions and lemmas for C86: the part of a database that is about
some partitions only follows the steps of the whole. -/
namespace Verif.Dur
open Wal (Rec)

/-- The events of the partitions that are looked at. -/
def fil (L : Nat → Bool) (iv : Nat) (es : List Event) : List Event := es.filter fun e => L (partOf iv e.id)

def prune (L : Nat → Bool) (iv : Nat) : Rec → Option Rec
  | .write l _ es => if fil L iv es = [] then none else some (.write l (fil L iv es).length (fil L iv es))
  | .drop _ _ => none

def pruneAll (L : Nat → Bool) (iv : Nat) (rs : List Rec) : List Rec := rs.filterMap (prune L iv)

def prunePend (L : Nat → Bool) (iv : Nat) : Option (Nat × List Event) → Option (Nat × List Event)
  | none => none
  | some (l, es) => if fil L iv es = [] then none else some (l, fil L iv es)

structure Sh (L : Nat → Bool) (iv : Nat) (db sh : Db) : Prop where
  slots : ∀ p, sh.slots p = if L p then db.slots p else {}
  wal : sh.wal = db.wal.map fun f => (f.1, pruneAll L iv f.2)
  pending : sh.pending = prunePend L iv db.pending
  lsn : sh.lsn = db.lsn
  cur : sh.cur = db.cur

theorem Sh.flat {L : Nat → Bool} {iv : Nat} {db sh : Db} (h : Sh L iv db sh) :
    sh.wal.flatMap (·.2) = pruneAll L iv (db.wal.flatMap (·.2)) := by
  rw [h.wal, List.flatMap_map]
  unfold pruneAll
  rw [List.filterMap_flatMap]

theorem pruneAll_append (L : Nat → Bool) (iv : Nat) (a b : List Rec) :
    pruneAll L iv (a ++ b) = pruneAll L iv a ++ pruneAll L iv b := by
  unfold pruneAll
  rw [List.filterMap_append]

theorem foldl_fil {α : Type} {L : Nat → Bool} {iv q : Nat} {g : α → Event → α} (hq : L q = true)
    (hg : ∀ s e, partOf iv e.id ≠ q → g s e = s) : ∀ (es : List Event) (s : α),
    es.foldl g s = (fil L iv es).foldl g s := by
  intro es
  induction es with
  | nil => intro s; rfl
  | cons e es ih =>
    intro s
    unfold fil
    by_cases he : L (partOf iv e.id) = true
    · rw [List.filter_cons_of_pos (p := fun e : Event => L (partOf iv e.id)) he, List.foldl_cons, List.foldl_cons]
      exact ih _
    · rw [List.filter_cons_of_neg (p := fun e : Event => L (partOf iv e.id)) he, List.foldl_cons, hg]
      · exact ih _
      · rintro rfl
        exact he hq

theorem foldl_dead {α : Type} {L : Nat → Bool} {iv q : Nat} {g : α → Event → α} (hq : L q = false)
    (hg : ∀ s e, partOf iv e.id ≠ q → g s e = s) : ∀ (es : List Event) (s : α),
    (fil L iv es).foldl g s = s := by
  intro es
  induction es with
  | nil => intro s; rfl
  | cons e es ih =>
    intro s
    unfold fil
    by_cases he : L (partOf iv e.id) = true
    · rw [List.filter_cons_of_pos (p := fun e : Event => L (partOf iv e.id)) he, List.foldl_cons, hg]
      · exact ih _
      · rintro rfl
        rw [hq] at he
        cases he
    · rw [List.filter_cons_of_neg (p := fun e : Event => L (partOf iv e.id)) he]
      exact ih _

/-! Steps of one partition. -/

theorem Sh.live {L : Nat → Bool} {iv : Nat} {db sh : Db} (h : Sh L iv db sh) {p : Nat} (hp : L p = true)
    (f : Part → Files → Option (Part × Files)) : Sh L iv (onPart db p f) (onPart sh p f) := by
  obtain ⟨a1, a2, a3, a4⟩ := onPart_rest db p f
  obtain ⟨b1, b2, b3, b4⟩ := onPart_rest sh p f
  constructor
  · intro q
    rw [onPart_slots, onPart_slots]
    by_cases hq : q = p
    · rw [if_pos hq, if_pos hq, hq, if_pos hp, h.slots p, if_pos hp]
    · rw [if_neg hq, if_neg hq]
      exact h.slots q
  · rw [b2, a2]
    exact h.wal
  · rw [b4, a4]
    exact h.pending
  · rw [b1, a1]
    exact h.lsn
  · rw [b3, a3]
    exact h.cur

theorem Sh.dead {L : Nat → Bool} {iv : Nat} {db sh : Db} (h : Sh L iv db sh) {p : Nat} (hp : L p = false)
    (f : Part → Files → Option (Part × Files)) : Sh L iv (onPart db p f) sh := by
  obtain ⟨a1, a2, a3, a4⟩ := onPart_rest db p f
  constructor
  · intro q
    rw [onPart_slots]
    by_cases hq : q = p
    · rw [hq, hp, if_neg (by simp), h.slots p, hp, if_neg (by simp)]
    · rw [if_neg hq]
      exact h.slots q
  · rw [a2]
    exact h.wal
  · rw [a4]
    exact h.pending
  · rw [a1]
    exact h.lsn
  · rw [a3]
    exact h.cur

theorem Sh.held {L : Nat → Bool} {iv : Nat} {db sh : Db} (h : Sh L iv db sh) {p : Nat} (hp : L p = true) :
    held iv sh p = held iv db p := by
  unfold Dur.held
  rw [h.pending]
  unfold prunePend
  cases hd : db.pending with
  | none => rfl
  | some x =>
    obtain ⟨l, es⟩ := x
    dsimp only
    have e : (fil L iv es).any (fun e => partOf iv e.id == p) = es.any (fun e => partOf iv e.id == p) := by
      unfold fil
      rw [Bool.eq_iff_iff, List.any_eq_true, List.any_eq_true]
      constructor
      · rintro ⟨e, he, h1⟩
        exact ⟨e, (List.mem_filter.1 he).1, h1⟩
      · rintro ⟨e, he, h1⟩
        refine ⟨e, List.mem_filter.2 ⟨he, ?_⟩, h1⟩
        simp only [beq_iff_eq] at h1
        rw [h1]
        exact hp
    by_cases hn : fil L iv es = []
    · rw [if_pos hn]
      rw [hn] at e
      exact e
    · rw [if_neg hn]
      exact e

/-! Batches. -/

theorem putOne_ne (iv q : Nat) (s : Slot) (e : Event) (h : partOf iv e.id ≠ q) : putOne iv q s e = s := by
  unfold putOne
  rw [if_neg h]

theorem followOne_ne (iv q l : Nat) (s : Slot) (e : Event) (h : partOf iv e.id ≠ q) : followOne iv q l s e = s := by
  unfold followOne
  rw [if_neg h]

theorem replayOne_ne (iv q : Nat) (s : Slot) (y : Nat × Event) (h : partOf iv y.2.id ≠ q) : replayOne iv q s y = s := by
  unfold replayOne
  rw [if_neg h]

theorem log_rest {iv : Nat} {db : Db} (hp : db.pending = none) (es : List Event) :
    (∀ q, (log iv db es).slots q = es.foldl (putOne iv q) (db.slots q)) ∧
    (log iv db es).wal = plus db [.write (db.lsn + 1) es.length es] ∧ (log iv db es).cur = db.cur ∧
    (log iv db es).lsn = db.lsn + 1 ∧ (log iv db es).pending = some (db.lsn + 1, es) ∧
    ((∀ p, p ∉ db.known → db.slots p = {}) → ∀ p, p ∉ (log iv db es).known → (log iv db es).slots p = {}) := by
  have hlog : log iv db es =
      { (es.foldl (putEvent iv) db).append (.write (db.lsn + 1) es.length es) with pending := some (db.lsn + 1, es) } := by
    unfold log
    rw [hp]
  obtain ⟨r1, r2, r3, r4⟩ := puts_rest iv es db
  rw [hlog]
  refine ⟨fun q => puts_slots iv q es db, ?_, r2, ?_, rfl, r4⟩
  · show (List.map _ _) = _
    rw [r1, r2]
    rfl
  · show Db.lsn _ + 1 = _
    rw [r3]

theorem Sh.plus {L : Nat → Bool} {iv : Nat} {db sh : Db} (h : Sh L iv db sh) (ext : List Rec) :
    (plus db ext).map (fun f => (f.1, pruneAll L iv f.2)) = Dur.plus sh (pruneAll L iv ext) := by
  unfold Dur.plus
  rw [h.wal, h.cur, List.map_map, List.map_map]
  apply List.map_congr_left
  intro f _
  simp only [Function.comp]
  split
  · rw [pruneAll_append]
  · rfl

theorem log_shade {L : Nat → Bool} {iv n : Nat} {db sh : Db} {H : List Rec} (h : Sh L iv db sh)
    (hi : Inv0 iv sh H n) (hp : db.pending = none) (es : List Event) :
    ∃ sh', Sh L iv (log iv db es) sh' ∧ Inv0 iv sh' (H ++ pruneAll L iv [.write (db.lsn + 1) es.length es]) n := by
  obtain ⟨a1, a2, a3, a4, a5, _⟩ := log_rest hp (iv := iv) es
  have hsp : sh.pending = none := by rw [h.pending, hp]; rfl
  by_cases hf : fil L iv es = []
  · have e : pruneAll L iv [.write (db.lsn + 1) es.length es] = [] := by
      simp [pruneAll, prune, hf]
    refine ⟨{ sh with lsn := db.lsn + 1 }, ?_, ?_⟩
    · constructor
      · intro q
        rw [a1, h.slots]
        split
        · rename_i hq
          rw [foldl_fil hq (putOne_ne iv q), hf]
          rfl
        · rfl
      · rw [a2, h.plus, e, plus_nil]
      · rw [a5, hsp]
        unfold prunePend
        dsimp only
        rw [if_pos hf]
      · exact a4.symm
      · rw [a3]
        exact h.cur
    · rw [e, List.append_nil]
      apply bump_inv0 hi
      rw [h.lsn]
      omega
  · have e : pruneAll L iv [.write (db.lsn + 1) es.length es] =
        [.write (sh.lsn + 1) (fil L iv es).length (fil L iv es)] := by
      simp [pruneAll, prune, hf, h.lsn]
    obtain ⟨b1, b2, b3, b4, b5, _⟩ := log_rest hsp (iv := iv) (fil L iv es)
    refine ⟨log iv sh (fil L iv es), ?_, ?_⟩
    · constructor
      · intro q
        rw [b1, a1, h.slots]
        split
        · rename_i hq
          rw [foldl_fil hq (putOne_ne iv q) es]
        · rename_i hq
          exact foldl_dead (by simpa using hq) (putOne_ne iv q) _ _
      · rw [a2, h.plus, e, b2]
      · rw [b5, a5]
        unfold prunePend
        dsimp only
        rw [if_neg hf, h.lsn]
      · rw [b4, a4, h.lsn]
      · rw [b3, a3]
        exact h.cur
    · rw [e]
      exact log_inv0 hi hsp hf

theorem commit_shade {L : Nat → Bool} {iv n : Nat} {db sh : Db} {H : List Rec} (h : Sh L iv db sh)
    (hi : Inv0 iv sh H n) : ∃ sh', Sh L iv (commit iv db) sh' ∧ Inv0 iv sh' H n := by
  have hp' := h.pending
  unfold prunePend at hp'
  unfold commit
  cases hp : db.pending with
  | none => exact ⟨sh, h, hi⟩
  | some x =>
    obtain ⟨l, es⟩ := x
    rw [hp] at hp'
    dsimp only at hp' ⊢
    obtain ⟨r1, r2, r3, _⟩ := follows_rest iv l es db
    by_cases hf : fil L iv es = []
    · rw [if_pos hf] at hp'
      refine ⟨sh, ?_, hi⟩
      constructor
      · intro q
        show _ = if L q then (es.foldl (followEvent iv l) db).slots q else _
        rw [follows_slots, h.slots]
        split
        · rename_i hq
          rw [foldl_fil hq (followOne_ne iv q l), hf]
          rfl
        · rfl
      · show _ = List.map _ (es.foldl (followEvent iv l) db).wal
        rw [r1]
        exact h.wal
      · exact hp'
      · show _ = (es.foldl (followEvent iv l) db).lsn
        rw [r3]
        exact h.lsn
      · show _ = (es.foldl (followEvent iv l) db).cur
        rw [r2]
        exact h.cur
    · rw [if_neg hf] at hp'
      obtain ⟨s1, s2, s3, _⟩ := follows_rest iv l (fil L iv es) sh
      have hc := commit_inv0 hi
      unfold commit at hc
      rw [hp'] at hc
      refine ⟨_, ?_, hc⟩
      constructor
      · intro q
        show ((fil L iv es).foldl (followEvent iv l) sh).slots q = if L q then (es.foldl (followEvent iv l) db).slots q else _
        rw [follows_slots, follows_slots, h.slots]
        split
        · rename_i hq
          rw [foldl_fil hq (followOne_ne iv q l) es]
        · rename_i hq
          exact foldl_dead (by simpa using hq) (followOne_ne iv q l) _ _
      · show ((fil L iv es).foldl (followEvent iv l) sh).wal = List.map _ (es.foldl (followEvent iv l) db).wal
        rw [r1, s1]
        exact h.wal
      · rfl
      · show ((fil L iv es).foldl (followEvent iv l) sh).lsn = (es.foldl (followEvent iv l) db).lsn
        rw [r3, s3]
        exact h.lsn
      · show ((fil L iv es).foldl (followEvent iv l) sh).cur = (es.foldl (followEvent iv l) db).cur
        rw [r2, s2]
        exact h.cur

/-! The log files. -/

theorem Sh.last {L : Nat → Bool} {iv n : Nat} {db sh : Db} {H : List Rec} (h : Sh L iv db sh) (hi : Inv0 iv sh H n) :
    CurLast db := by
  obtain ⟨w, rs, hw⟩ := hi.cur
  rw [h.wal] at hw
  obtain ⟨w', r', e1, e2, e3⟩ := List.map_eq_append_iff.1 hw
  rw [List.map_eq_singleton_iff] at e3
  obtain ⟨f, e4, e5⟩ := e3
  obtain ⟨i, rs'⟩ := f
  simp only [Prod.mk.injEq] at e5
  rw [h.cur] at e5
  refine ⟨w', rs', by rw [e1, e4, e5.1], fun f hf hc => ?_⟩
  have hfl := hi.files
  rw [h.wal, e1, List.map_append, List.pairwise_append] at hfl
  have := (hfl.2.2 _ (List.mem_map.2 ⟨f, hf, rfl⟩) (i, pruneAll L iv rs') (by rw [e4]; simp)).1
  dsimp only at this
  omega

theorem Sh.ids {L : Nat → Bool} {iv n : Nat} {db sh : Db} {H : List Rec} (h : Sh L iv db sh) (hi : Inv0 iv sh H n) :
    ∀ f ∈ db.wal, f.1 ≤ db.cur := by
  intro f hf
  obtain ⟨w, rs, hw⟩ := hi.cur
  have hfl := hi.files
  have hm : (f.1, pruneAll L iv f.2) ∈ sh.wal := by
    rw [h.wal]
    exact List.mem_map.2 ⟨f, hf, rfl⟩
  rw [hw] at hm hfl
  rw [List.pairwise_append] at hfl
  rcases List.mem_append.1 hm with hm | hm
  · have := (hfl.2.2 _ hm _ (List.mem_singleton.2 rfl)).1
    dsimp only at this
    rw [h.cur] at this
    omega
  · simp only [List.mem_singleton, Prod.mk.injEq] at hm
    rw [hm.1, h.cur]
    exact Nat.le_refl _

theorem rotate_shade {L : Nat → Bool} {iv n : Nat} {db sh : Db} {H : List Rec} (h : Sh L iv db sh)
    (hi : Inv0 iv sh H n) (ha : db.cur ≤ db.lsn ∨ (db.cur, []) ∈ db.wal) :
    ∃ db' sh', rotate db = .ok db' ∧ Sh L iv db' sh' ∧ Inv0 iv sh' H n ∧ db'.slots = db.slots ∧ db'.known = db.known ∧
      db'.pending = db.pending ∧ db'.wal.flatMap (·.2) = db.wal.flatMap (·.2) := by
  unfold rotate
  by_cases he : db.wal.any (fun f => f.1 == db.cur && f.2.isEmpty) = true
  · rw [if_pos he]
    exact ⟨db, sh, rfl, h, hi, rfl, rfl, rfl, rfl⟩
  · rw [if_neg he]
    have hlt : db.cur ≤ db.lsn := by
      rcases ha with ha | ha
      · exact ha
      · exfalso
        apply he
        rw [List.any_eq_true]
        exact ⟨_, ha, by simp⟩
    have hall : ∀ f ∈ db.wal, f.1 < db.lsn + 1 := fun f hf => by
      have := h.ids hi f hf
      omega
    have hno : ¬ db.wal.any (fun f => f.1 == db.lsn + 1) = true := by
      rw [List.any_eq_true]
      rintro ⟨f, hf, h1⟩
      have := hall f hf
      simp only [beq_iff_eq] at h1
      omega
    rw [if_neg hno]
    have ht : db.wal.takeWhile (fun f => decide (f.1 < db.lsn + 1)) = db.wal := by
      apply takeWhile_all
      intro f hf
      simpa using hall f hf
    have hd : db.wal.dropWhile (fun f => decide (f.1 < db.lsn + 1)) = [] := by
      apply dropWhile_all
      intro f hf
      simpa using hall f hf
    rw [ht, hd, List.append_nil]
    have hr := rotated_inv0 hi (by
      intro f hf
      rw [h.wal] at hf
      obtain ⟨g, hg, rfl⟩ := List.mem_map.1 hf
      rw [h.lsn]
      exact hall g hg)
    refine ⟨_, _, rfl, ?_, hr, rfl, rfl, rfl, ?_⟩
    · constructor
      · exact h.slots
      · dsimp only
        rw [h.wal, h.lsn, List.map_append]
        rfl
      · exact h.pending
      · exact h.lsn
      · dsimp only
        rw [h.lsn]
    · dsimp only
      rw [List.flatMap_append]
      simp

theorem gc_shade {L : Nat → Bool} {iv n : Nat} {db sh : Db} {H : List Rec} (h : Sh L iv db sh) (hi : Inv0 iv sh H n)
    (hk : ∀ p, p ∉ db.known → db.slots p = {}) (hp : db.pending = none)
    (ho : ∀ p x, (db.slots p).part = some x → x.phase.open_ = false) :
    ∃ sh' n', Sh L iv (gc db) sh' ∧ Inv0 iv sh' H n' := by
  have hs : ∀ p x, (sh.slots p).part = some x → (db.slots p).part = some x := by
    intro p x hx
    rw [h.slots] at hx
    split at hx
    · exact hx
    · cases hx
  obtain ⟨n', h1⟩ := gcAt_inv0 hi (by rw [h.pending, hp]; rfl) (fun p x hx => ho p x (hs p x hx)) (m := lsnMin db)
    fun p x hx => lsnMin_le hk (hs p x hx)
  refine ⟨_, n', ?_, h1⟩
  constructor
  · exact h.slots
  · show List.drop _ _ = List.map _ (List.drop _ _)
    rw [h.wal, List.map_map, List.map_drop]
    rfl
  · exact h.pending
  · exact h.lsn
  · exact h.cur

/-! Restart. -/

theorem recOne_live {L : Nat → Bool} {iv q : Nat} (hq : L q = true) : ∀ (rs : List Rec) (s : Slot),
    (∀ l p, Rec.drop l p ∈ rs → L p = false) →
    rs.foldl (recOne iv q) s = (pruneAll L iv rs).foldl (recOne iv q) s := by
  intro rs
  induction rs with
  | nil => intro s _; rfl
  | cons r rs ih =>
    intro s hd
    have hd' : ∀ l p, Rec.drop l p ∈ rs → L p = false := fun l p h => hd l p (by simp [h])
    rw [List.foldl_cons, ih _ hd']
    cases r with
    | drop l p =>
      have hp : L p = false := hd l p (by simp)
      have e1 : recOne iv q s (.drop l p) = s := by
        unfold recOne
        dsimp only
        rw [if_neg]
        rintro rfl
        rw [hq] at hp
        cases hp
      rw [e1]
      rfl
    | write l m es =>
      have e1 : recOne iv q s (.write l m es) = ((fil L iv es).map fun e => (l, e)).foldl (replayOne iv q) s := by
        unfold recOne
        dsimp only
        rw [List.foldl_map, List.foldl_map]
        exact foldl_fil hq (fun s e he => replayOne_ne iv q s (l, e) he) es s
      rw [e1]
      unfold pruneAll
      rw [List.filterMap_cons]
      unfold prune
      dsimp only
      by_cases hf : fil L iv es = []
      · rw [if_pos hf, hf]
        rfl
      · rw [if_neg hf]
        rfl

theorem recOne_dead {L : Nat → Bool} {iv q : Nat} (hq : L q = false) : ∀ (rs : List Rec) (s : Slot),
    (pruneAll L iv rs).foldl (recOne iv q) s = s := by
  intro rs
  induction rs with
  | nil => intro s; rfl
  | cons r rs ih =>
    intro s
    cases r with
    | drop l p => exact ih s
    | write l m es =>
      unfold pruneAll
      rw [List.filterMap_cons]
      unfold prune
      dsimp only
      by_cases hf : fil L iv es = []
      · rw [if_pos hf]
        exact ih s
      · rw [if_neg hf]
        dsimp only
        rw [List.foldl_cons]
        have e1 : recOne iv q s (.write l (fil L iv es).length (fil L iv es)) = s := by
          unfold recOne
          dsimp only
          rw [List.foldl_map]
          exact foldl_dead hq (fun s e he => replayOne_ne iv q s (l, e) he) es s
        rw [e1]
        exact ih s

theorem pruneAll_again {L : Nat → Bool} {iv : Nat} {rs ext : List Rec} (h : Again rs ext) : pruneAll L iv ext = [] := by
  unfold pruneAll
  rw [List.filterMap_eq_nil_iff]
  intro x hx
  obtain ⟨l, l', p, _, rfl⟩ := h x hx
  rfl

theorem again_pruned {L : Nat → Bool} {iv : Nat} {rs ext : List Rec} (h : Again (pruneAll L iv rs) ext) : ext = [] := by
  cases ext with
  | nil => rfl
  | cons x ext =>
    exfalso
    obtain ⟨l, l', p, h1, _⟩ := h x (by simp)
    unfold pruneAll at h1
    obtain ⟨r, _, hr⟩ := List.mem_filterMap.1 h1
    cases r with
    | drop _ _ => cases hr
    | write l m es =>
      unfold prune at hr
      dsimp only at hr
      split at hr
      · cases hr
      · cases hr

theorem restart_shade {L : Nat → Bool} {iv n : Nat} {db sh : Db} {H : List Rec} (h : Sh L iv db sh)
    (hi : Inv0 iv sh H n) (hd : ∀ p, DiskOK (partOr (db.slots p)) (db.slots p).files)
    (hk : ∀ p, p ∉ db.known → db.slots p = {}) (hL : ∀ l p, Rec.drop l p ∈ db.wal.flatMap (·.2) → L p = false)
    {db' : Db} (hr : restart iv db = .ok db') (hle : db.lsn ≤ db'.lsn) : ∃ sh', Sh L iv db' sh' ∧ Inv0 iv sh' H n := by
  have hc := h.last hi
  obtain ⟨d, ext, ext', r1, r2, r3, r4, r5, r6, r7, _⟩ := restart_spec (iv := iv) hd hk hc
  rw [hr] at r1
  cases r1
  have hcs : CurLast sh := by
    obtain ⟨w, rs, e1, e2⟩ := hc
    refine ⟨w.map fun f => (f.1, pruneAll L iv f.2), pruneAll L iv rs, ?_, ?_⟩
    · rw [h.wal, e1, h.cur, List.map_append]
      rfl
    · intro f hf
      obtain ⟨g, hg, rfl⟩ := List.mem_map.1 hf
      rw [h.cur]
      exact e2 g hg
  obtain ⟨d2, x, x', s1, s2, s3, s4, s5, s6, s7, _⟩ := restart_spec (iv := iv) (fun p => (hi.slots p).disk) hi.known hcs
  rw [h.flat] at s2 s3
  cases again_pruned s2
  cases again_pruned s3
  obtain ⟨d3, t1, t2, _⟩ := restart_inv0 hi
  rw [s1] at t1
  cases t1
  refine ⟨_, ?_, t2 db'.lsn (by rw [h.lsn]; exact hle)⟩
  constructor
  · intro q
    show d2.slots q = _
    rw [s4, r4, List.append_nil, h.flat, h.slots]
    by_cases hq : L q = true
    · rw [if_pos hq, if_pos hq]
      rw [recOne_live hq (db.wal.flatMap (·.2) ++ ext), pruneAll_append, pruneAll_again r2, List.append_nil]
      intro l p hm
      rcases List.mem_append.1 hm with hm | hm
      · exact hL l p hm
      · obtain ⟨l1, l2, p', g1, g2⟩ := r2 _ hm
        cases g2
        exact hL _ _ g1
    · rw [if_neg hq, if_neg hq]
      exact recOne_dead (by simpa using hq) _ _
  · show d2.wal = _
    rw [s7, r7, h.plus, pruneAll_again r3]
  · show d2.pending = _
    rw [s5, r5]
    rfl
  · rfl
  · show d2.cur = _
    rw [s6, r6, h.cur]

end Verif.Dur
