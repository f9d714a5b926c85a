import Verif.Proofs.WholeRestart
import Verif.Proofs.WholeTorn
import Verif.Proofs.WholeBack

/-! Helper lemmas: histories of the whole database. -/
namespace Verif.Whole
open Rb Spec Io Mapping Cursor
open Dur (partOf tget tset Key partOr dur lsnOf recSlot evs replayOne)
open C84 (Limits Called Quiet accepted tried Along)

structure Rel (env : Env) (E A B : List Event) (n : Nat) (w : Db) (db : Dur.Db) (H : List Wal.Rec) (k : Nat) : Prop where
  map : MapRel env E B n w.map w.phase w.disk db.slots
  names : NamesOK w.names w.disk
  pending : w.pending = db.pending
  log : ∃ fs, LogRel env.crcOn w.wal db fs
  lsn : db.lsn ≤ n
  hist : (evs H).map (·.2) = A
  inv : Dur.Inv env.iv db H k
  wf : ∀ e ∈ B, WF e
  sub : B.Sublist E
  acc : A.Sublist B

theorem LogRel.congr {crcOn : Bool} {s : Wal.State} {db db' : Dur.Db} {fs : List C22.LogFile} (h : LogRel crcOn s db fs)
    (h1 : db'.wal = db.wal) (h2 : db'.cur = db.cur) (h3 : db'.lsn = db.lsn) : LogRel crcOn s db' fs :=
  ⟨h.wf, h.holds, h.batches, h1.trans h.wal, by rw [h2]; exact h.cur, by rw [h3]; exact h.lsn⟩

theorem onPart_rest (db : Dur.Db) (p : Nat) (g : Dur.Part → Dur.Files → Option (Dur.Part × Dur.Files)) :
    (Dur.onPart db p g).wal = db.wal ∧ (Dur.onPart db p g).cur = db.cur ∧ (Dur.onPart db p g).lsn = db.lsn ∧
    (Dur.onPart db p g).pending = db.pending := by
  unfold Dur.onPart
  dsimp only
  cases (db.slots p).part with
  | none => exact ⟨rfl, rfl, rfl, rfl⟩
  | some x =>
    dsimp only
    cases g x (db.slots p).files with
    | none => exact ⟨rfl, rfl, rfl, rfl⟩
    | some r => exact ⟨rfl, rfl, rfl, rfl⟩

/-- A step of a refresh. -/
theorem Rel.stepped {env : Env} {E A B : List Event} {n n' k : Nat} {w w' : Db} {db db' : Dur.Db} {H : List Wal.Rec}
    (h : Rel env E A B n w db H k) (hs : Stepped env E B n' w w' db'.slots) (hn : n ≤ n')
    (hr : db'.wal = db.wal ∧ db'.cur = db.cur ∧ db'.lsn = db.lsn ∧ db'.pending = db.pending)
    (hi : Dur.Inv env.iv db' H k) : Rel env E A B n' w' db' H k := by
  obtain ⟨r1, r2, r3, r4⟩ := hr
  obtain ⟨fs, hfs⟩ := h.log
  refine ⟨hs.map, hs.names h.names, ?_, ⟨fs, ?_⟩, ?_, h.hist, hi, h.wf, h.sub, h.acc⟩
  · rw [hs.pending, r4]
    exact h.pending
  · rw [hs.wal]
    exact hfs.congr r1 r2 r3
  · rw [r3]
    exact Nat.le_trans h.lsn hn

theorem Rel.more {env : Env} {E A B : List Event} {n n' k : Nat} {w : Db} {db : Dur.Db} {H : List Wal.Rec}
    (h : Rel env E A B n w db H k) (hn : n ≤ n') : Rel env E A B n' w db H k :=
  ⟨h.map.mono (List.Sublist.refl _) hn, h.names, h.pending, h.log, Nat.le_trans h.lsn hn, h.hist, h.inv, h.wf, h.sub, h.acc⟩

/-- What a restart of the model of tables as maps leaves. -/
theorem restart_slots {iv n : Nat} {db : Dur.Db} {H : List Wal.Rec} (h : Dur.Inv iv db H n) :
    ∃ db', Dur.restart iv db = .ok db' ∧ Dur.Inv iv db' H n ∧ db'.lsn = db.lsn ∧ db'.wal = db.wal ∧ db'.cur = db.cur ∧
      db'.pending = none ∧ ∀ q, db'.slots q = (evs (H.drop n)).foldl (replayOne iv q) (recSlot (db.slots q)) := by
  obtain ⟨db', g1, g2, g3, _⟩ := Dur.restart_inv h
  obtain ⟨db1, h1, h2, h3, h4, h5, h6, h7⟩ := Dur.recoverAll_spec db (fun p => (h.slots p).disk) db.known
  have hslot : ∀ q, db1.slots q = recSlot (db.slots q) := by
    intro q
    rw [h2]
    split
    · rfl
    · rename_i hq
      rw [h.known q hq]
      rfl
  obtain ⟨w, rs, hw⟩ := h.cur
  have hgl : db1.wal.getLast? = some (db.cur, rs) := by
    rw [h4, hw, List.getLast?_append]
    rfl
  have hws : ∀ f ∈ db1.wal, Dur.OnlyWrites f.2 := by
    intro f hf r hr
    apply h.writes r
    have : r ∈ H.drop n := by
      rw [← h.wal, ← h4]
      exact List.mem_flatMap.2 ⟨f, hf, hr⟩
    exact List.mem_of_mem_drop this
  have e1 : Dur.restart iv db = .ok (Dur.replayFrom iv db1.wal.length 0 { db1 with cur := db.cur }) := by
    unfold Dur.restart
    rw [h1, Res.bind_ok]
    simp only [hgl]
  have e2 : Dur.replayFrom iv db1.wal.length 0 { db1 with cur := db.cur } =
      (H.drop n).foldl (Dur.replayRec iv) { db1 with cur := db.cur } := by
    rw [Dur.replayFrom_eq iv _ 0 { db1 with cur := db.cur } (by simp) hws]
    simp only [List.drop_zero]
    rw [h4, h.wal]
  rw [e2] at e1
  have hwd : Dur.OnlyWrites (H.drop n) := fun r hr => h.writes r (List.mem_of_mem_drop hr)
  have hr := fun q => Dur.replayRecs iv q (H.drop n) hwd { db1 with cur := db.cur }
  have e3 := g1
  rw [e1] at e3
  have e3 := Res.ok.inj e3
  rw [e3] at hr
  obtain ⟨_, r2, r3, r4, _⟩ := hr 0
  refine ⟨db', g1, g2, g3, r2.trans h4, r3, r4.trans h5, ?_⟩
  intro q
  have := (hr q).1
  dsimp only at this
  rw [hslot q] at this
  exact this

/-- The files that are left over carry all that is not in the log. -/
theorem last_le {iv n : Nat} {db : Dur.Db} {H : List Wal.Rec} (h : Dur.Inv iv db H n) {b : Nat}
    (h1 : ∀ p, lsnOf (dur (db.slots p).files) ≤ b) (h2 : ∀ r ∈ H.drop n, r.lsn ≤ b) : db.lsn ≤ b := by
  rw [h.eq]
  unfold Dur.lastLsn
  rcases List.eq_nil_or_concat H with hH | ⟨H0, r, hH⟩
  · rw [hH]
    exact Nat.zero_le _
  · rw [List.concat_eq_append] at hH
    rw [hH, List.getLast?_append]
    show r.lsn ≤ _
    have hrH : r ∈ H := by rw [hH]; simp
    rw [← List.take_append_drop n H] at hrH
    rcases List.mem_append.1 hrH with hr | hr
    · obtain ⟨l, m, es, rfl, hes, _⟩ := h.writes r (List.mem_of_mem_take hr)
      obtain ⟨e, he⟩ := List.exists_mem_of_ne_nil es hes
      have hc := h.cover (l, e) (List.mem_flatMap.2 ⟨_, hr, List.mem_map.2 ⟨e, he, rfl⟩⟩)
      exact Nat.le_trans hc (h1 _)
    · exact h2 r hr

theorem evs_map_append (H1 H2 : List Wal.Rec) :
    (evs (H1 ++ H2)).map (·.2) = (evs H1).map (·.2) ++ (evs H2).map (·.2) := by
  rw [Dur.evs_append, List.map_append]

/-- What is on disk. -/
structure Left (env : Env) (E A B : List Event) (n : Nat) (dk : Nat → Files) (nm : List Nat) (d : Wal.Dir) (db : Dur.Db)
    (fs : List C22.LogFile) (H : List Wal.Rec) (k : Nat) : Prop where
  disk : DiskRel env E n dk db.slots
  names : NamesOK nm dk
  wf : C22.LogWF env.crcOn fs
  holds : C22.Holds env.crcOn fs d
  batches : C23.Batches (C22.entriesOf fs)
  wal : db.wal = fs.map fun f => (f.id, f.entries.map (·.record))
  cur : ∃ fs0 f, fs = fs0 ++ [f] ∧ f.id = db.cur
  lsn : db.lsn ≤ n
  hist : (evs H).map (·.2) = A
  inv : Dur.Inv env.iv db H k
  events : ∀ e ∈ B, WF e
  sub : B.Sublist E
  acc : A.Sublist B

theorem Rel.left {env : Env} {E A B : List Event} {n k : Nat} {w : Db} {db : Dur.Db} {H : List Wal.Rec}
    (h : Rel env E A B n w db H k) : ∃ fs, Left env E A B n w.disk w.names w.wal.dir db fs H k := by
  obtain ⟨fs, hfs⟩ := h.log
  obtain ⟨fs0, f, _, h1, _, _, h2⟩ := hfs.cur
  exact ⟨fs, h.map.files, h.names, hfs.wf, hfs.holds, hfs.batches, hfs.wal, ⟨fs0, f, h1, h2⟩, h.lsn, h.hist, h.inv, h.wf, h.sub, h.acc⟩

/-- The restart. -/
theorem start_rel {env : Env} {E A B : List Event} {n k : Nat} {disk : Nat → Files} {names : List Nat} {d : Wal.Dir}
    {db : Dur.Db} {fs : List C22.LogFile} {H : List Wal.Rec} (h : Left env E A B n disk names d db fs H k) (hl : Limits env E)
    (hsm : ∀ f ∈ d.files, f.2.length ≤ 3221225472) :
    ∃ w' db', start env disk names d.files = .ok w' ∧ Rel env E A B n w' db' H k := by
  obtain ⟨nn, nd⟩ := h.names
  obtain ⟨r, r1, r2, r3, r4, r5⟩ := recover_rel h.disk h.inv hl names [] ⟨Mapping.init, disk, 0⟩ (by simpa using nn)
    (by simpa using mapRel_init env E n) (fun _ _ => rfl) (by simp) (fun _ _ => Nat.zero_le _)
  simp only [List.nil_append] at r2 r3 r4
  have hnone : ∀ q, q ∉ names → dur (db.slots q).files = none := by
    intro q hq
    obtain ⟨f1, f2, f3⟩ := (h.disk q).1
    rw [nd q hq] at f1 f2
    unfold dur
    unfold BytesRel at f1 f2
    cases hid : (db.slots q).files.id_ with
    | some x => rw [hid] at f1; exact f1.elim
    | none =>
      dsimp only
      cases hco : (db.slots q).files.complete with
      | some x => rw [hco] at f2; exact f2.elim
      | none => rfl
  have hmap : MapRel env E [] n r.map (fun _ => .idle) r.disk (fun q => recSlot (db.slots q)) := by
    have e1 : (fun q => if q ∈ names then r.disk q else {}) = r.disk := by
      funext q
      by_cases hq : q ∈ names
      · rw [if_pos hq]
      · rw [if_neg hq, r3 q hq, nd q hq]
    have e2 : (fun q => if q ∈ names then recSlot (db.slots q) else {}) = fun q => recSlot (db.slots q) := by
      funext q
      by_cases hq : q ∈ names
      · rw [if_pos hq]
      · rw [if_neg hq]
        unfold recSlot
        rw [hnone q hq]
    rw [e1, e2] at r2
    exact r2
  obtain ⟨fs0, f, hfs0, hid⟩ := h.cur
  have hlast : fs.getLast? = some f := by rw [hfs0]; simp
  have hrest := C23.restart_spec h.wf h.holds hsm hlast r.lsn (logBytes d.files + 1)
    (by have := fuel_ok h.wf h.holds; omega)
  have hrecs : (C22.entriesOf fs).map (·.record) = H.drop k := by
    rw [← h.inv.wal, h.wal]
    unfold C22.entriesOf
    rw [List.map_flatMap, List.flatMap_map]
  rw [hrecs] at hrest
  have hsub : ((evs (H.drop k)).map (·.2)).Sublist A := by
    rw [← h.hist, ← List.take_append_drop k H, evs_map_append, List.take_append_drop]
    exact List.sublist_append_right _ _
  obtain ⟨m, m1, m2⟩ := replayAll_rel hl (H.drop k) [] r.map _ hmap
    (fun r hr => h.inv.writes r (List.mem_of_mem_drop hr))
    (fun y hy => h.events y.2 ((hsub.trans h.acc).subset (List.mem_map.2 ⟨y, hy, rfl⟩)))
    (by simpa using (hsub.trans h.acc).trans h.sub)
  obtain ⟨db', g1, g2, g3, g4, g5, g6, g7⟩ := restart_slots h.inv
  refine ⟨{ map := m
            phase := fun _ => .idle
            disk := r.disk
            names := names
            wal := ⟨d, some ⟨f.id, (C23.dat env.crcOn f).length, (C23.dat env.crcOn f).length⟩,
              Wal.followLsn r.lsn (H.drop k)⟩
            pending := none }, db', ?_, ?_, ⟨nn, ?_⟩, ?_, ⟨fs, ?_⟩, ?_, h.hist, g2, h.events, h.sub, h.acc⟩
  · unfold start
    rw [r1]
    simp only [Res.bind_ok]
    rw [hrest]
    simp only [Res.bind_ok]
    rw [m1]
    rfl
  · have : db'.slots = fun q => (evs (H.drop k)).foldl (replayOne env.iv q) (recSlot (db.slots q)) := funext g7
    rw [this]
    refine m2.mono ?_ (Nat.le_refl _)
    simpa using hsub.trans h.acc
  · intro q hq
    dsimp only
    rw [r3 q hq, nd q hq]
  · exact g6.symm
  · refine ⟨h.wf, h.holds, h.batches, g4.trans h.wal, ⟨fs0, f, _, hfs0, rfl, Nat.le_refl _, by rw [g5]; exact hid⟩, ?_⟩
    dsimp only
    rw [g3, ← hrecs, C23.follow_spec _ _ h.batches]
    have hb := C23.lsn_le_foldl (C22.entriesOf fs) r.lsn
    apply Nat.le_antisymm
    · rw [C23.foldl_max]
      apply Nat.max_le.2
      refine ⟨r5 _ (fun p => Nat.le_trans (h.inv.slots p).durB (h.inv.slots p).part.fb), ?_⟩
      have hle := entry_le h.inv h.wal
      have : ∀ (l : List C22.Entry) (m b : Nat), m ≤ b → (∀ e ∈ l, e.lsn ≤ b) → l.foldl (fun m e => max m e.lsn) m ≤ b := by
        intro l
        induction l with
        | nil => intro m b hm _; exact hm
        | cons x l ih =>
          intro m b hm hx
          rw [List.foldl_cons]
          exact ih _ b (Nat.max_le.2 ⟨hm, hx x (by simp)⟩) (fun e he => hx e (by simp [he]))
      exact this _ _ _ (Nat.zero_le _) hle
    · refine last_le h.inv ?_ ?_
      · intro p
        by_cases hp : p ∈ names
        · exact Nat.le_trans (r4 p hp) hb.1
        · rw [hnone p hp]
          exact Nat.zero_le _
      · intro x hx
        rw [← hrecs] at hx
        obtain ⟨e, he, rfl⟩ := List.mem_map.1 hx
        rw [record_lsn]
        exact hb.2 e he
  · rw [g3]
    exact h.lsn

/-- A crash between the steps. -/
theorem crash_rel {env : Env} {E A B : List Event} {n k : Nat} {w : Db} {db : Dur.Db} {H : List Wal.Rec}
    (h : Rel env E A B n w db H k) (hl : Limits env E) (hsm : ∀ f ∈ w.wal.dir.files, f.2.length ≤ 3221225472) :
    ∃ w' db', start env w.disk w.names w.wal.dir.files = .ok w' ∧ Rel env E A B n w' db' H k := by
  obtain ⟨fs, hfs⟩ := h.left
  exact start_rel hfs hl hsm

/-- A crash in the middle of a record. -/
theorem torn_rel {env : Env} {E A B : List Event} {n m k : Nat} {w : Db} {db : Dur.Db} {H : List Wal.Rec} {es : List Wal.LogEvent}
    (h : Rel env E A B n w db H k) (hl : Limits env E) (hn : n + 1 < 4294967296) (hc : Called env w (.tear es m))
    (hq : C84.Clean env.crcOn w) : ∃ w' db', tear env w es m = .ok w' ∧ Rel env E A B n w' db' H k := by
  obtain ⟨c1, c2, c3, c4, c5⟩ := hc
  obtain ⟨fs, hfs⟩ := h.log
  have hlsn := h.lsn
  obtain ⟨fs0, f, _, t, d, rfl, t1, t2, _, _, _, t3, t4, t5⟩ := tear_rel hfs (clean_torn hfs hq) c2 c3 (by omega) c4
  obtain ⟨_, _, _, q1, _, _, q2⟩ := hfs.cur
  have q1 := (List.append_inj' q1 rfl).2
  simp only [List.cons.injEq, and_true] at q1
  rw [← q1] at q2
  obtain ⟨w', db', s1, s2⟩ := start_rel (env := env) (E := E) (A := A) (B := B) (n := n) (k := k) (disk := w.disk) (names := w.names)
    (d := d) (db := db) (fs := fs0 ++ [{ f with torn := t }]) (H := H)
    ⟨h.map.files, h.names, t3, t4, by rw [C23.entries_torn]; exact hfs.batches, by rw [hfs.wal]; simp,
      ⟨fs0, _, rfl, q2⟩, h.lsn, h.hist, h.inv, h.wf, h.sub, h.acc⟩ hl (by
      intro g hg
      obtain ⟨g', hg', hle⟩ := t5 g hg
      exact Nat.le_trans hle (c5 g' hg'))
  refine ⟨w', db', ?_, s2⟩
  unfold tear
  rw [c1]
  dsimp only
  rw [t2]
  exact s1

/-- A crash while a file is written. -/
theorem cut_rel {env : Env} {E A B : List Event} {n k id : Nat} {w : Db} {db : Dur.Db} {H : List Wal.Rec} {b : Bytes}
    (h : Rel env E A B n w db H k) (hl : Limits env E) (hid : id < 2147483648)
    (hsm : ∀ f ∈ w.wal.dir.files, f.2.length ≤ 3221225472) :
    ∃ w' db', cut env w id b = .ok w' ∧ Rel env E A B n w' db' H k := by
  have hsame : ∀ {f}, onPart w id f = .ok w → ∃ w' db', (onPart w id f).bind (fun w => start env w.disk w.names w.wal.dir.files) =
      .ok w' ∧ Rel env E A B n w' db' H k := by
    intro f hf
    rw [hf]
    exact crash_rel h hl hsm
  unfold cut
  rcases h.map.find hl hid with ⟨h1, h2⟩ | ⟨x, y, h1, h2, h3, h4, h5, h6⟩
  · apply hsame
    unfold onPart
    rw [h1]
    rfl
  · have hph := h6.phase
    cases hw : w.phase x.v.min with
    | begun =>
      cases hy2 : y.phase <;> rw [hw, hy2] at hph <;> try exact hph.elim
      have hd : Dur.merge db x.v.min = db.set x.v.min
          { part := some { y with phase := .merged (Dur.mergeFile y) }, files := { (db.slots x.v.min).files with incomplete := true } } := by
        unfold Dur.merge Dur.onPart
        dsimp only
        rw [h5]
        dsimp only
        rw [if_pos hy2]
      have hi := Dur.merge_inv h.inv x.v.min
      obtain ⟨r1, r2, r3, r4⟩ := onPart_rest db x.v.min (fun x fs =>
        if x.phase = .begun then some ({ x with phase := .merged (Dur.mergeFile x) }, { fs with incomplete := true }) else none)
      obtain ⟨fs, hfs⟩ := h.log
      obtain ⟨fs0, f, _, q1, _, _, q2⟩ := hfs.cur
      obtain ⟨nn, nd⟩ := h.names
      have hL : Left env E A B n (fun q => if q = x.v.min then { w.disk x.v.min with incomplete := some b } else w.disk q)
          (if x.v.min ∈ w.names then w.names else w.names ++ [x.v.min]) w.wal.dir (Dur.merge db x.v.min) fs H k := by
        refine ⟨?_, ⟨?_, ?_⟩, hfs.wf, hfs.holds, hfs.batches, r1.trans hfs.wal, ⟨fs0, f, q1, q2.trans r2.symm⟩, ?_, h.hist, hi, h.wf, h.sub, h.acc⟩
        · intro q
          rw [hd, Dur.set_slots]
          by_cases hq : q = x.v.min
          · subst hq
            dsimp only
            rw [if_pos rfl, if_pos rfl]
            exact ⟨⟨h6.files.id_, h6.files.complete, rfl⟩, .inl ⟨h4.2.2, h4.2.1⟩⟩
          · dsimp only
            rw [if_neg hq, if_neg hq]
            exact h.map.files q
        · split
          · exact nn
          · rename_i hx
            rw [List.nodup_append]
            refine ⟨nn, by simp, ?_⟩
            intro a ha c hc e
            simp only [List.mem_singleton] at hc
            subst hc
            subst e
            exact hx ha
        · intro q hq
          have : q ≠ x.v.min ∧ q ∉ w.names := by
            split at hq
            · rename_i hx
              exact ⟨fun e => hq (e ▸ hx), hq⟩
            · simp only [List.mem_append, List.mem_singleton, not_or] at hq
              exact ⟨hq.2, hq.1⟩
          dsimp only
          rw [if_neg this.1]
          exact nd q this.2
        · have : (Dur.merge db x.v.min).lsn = db.lsn := r3
          rw [this]
          exact h.lsn
      obtain ⟨w', db', s1, s2⟩ := start_rel hL hl hsm
      refine ⟨w', db', ?_, s2⟩
      unfold onPart
      rw [h1]
      simp only [Res.bind_ok]
      rw [hw]
      exact s1
    | _ =>
      apply hsame
      unfold onPart
      rw [h1]
      simp only [Res.bind_ok]
      rw [hw]
      rfl

/-- A new database. -/
theorem create_rel (env : Env) (E : List Event) : ∃ w, create env = .ok w ∧ Rel env E [] [] 0 w Dur.init [] 0 := by
  refine ⟨{ map := Mapping.init
            phase := fun _ => .idle
            disk := fun _ => {}
            names := []
            wal := ⟨⟨[1], [(1, [])]⟩, some ⟨1, 0, 0⟩, 0⟩
            pending := none }, rfl, mapRel_init env E 0,
    ⟨List.nodup_nil, fun _ _ => rfl⟩, rfl, ⟨[⟨1, [], []⟩], ?_⟩, Nat.le_refl _, rfl, Dur.init_inv _, by simp, by simp, by simp⟩
  refine ⟨⟨⟨by simp, ?_⟩, ?_⟩, ?_, ?_, rfl, ⟨[], _, _, rfl, rfl, Nat.le_refl _, rfl⟩, rfl⟩
  · intro f hf
    simp only [List.mem_singleton] at hf
    subst hf
    simp
  · intro f hf
    simp only [List.mem_singleton] at hf
    subst hf
    exact ⟨by simp, .inl rfl⟩
  · exact ⟨⟨[], []⟩, [], ⟨rfl, rfl⟩, rfl, rfl, rfl⟩
  · intro e he
    simp [C22.entriesOf] at he

/-- The refresh of the partition that an id finds has not failed. -/
theorem not_failed {env : Env} {E A : List Event} {n id : Nat} {w : Db} {slots : Nat → Dur.Slot}
    (h : MapRel env E A n w.map w.phase w.disk slots) (hl : Limits env E) (hid : id < 2147483648)
    (hq : ∀ x, find w.map id = .ok (some x) → w.phase x.v.min ≠ .failed) : w.phase (partOf env.iv id) ≠ .failed ∨
      find w.map id = .ok none := by
  rcases h.find hl hid with ⟨h1, _⟩ | ⟨x, y, h1, h2, h3, h4, h5, h6⟩
  · exact .inr h1
  · rw [← h3]
    exact .inl (hq x h1)

/-- One step. -/
theorem step_rel {env : Env} {E A B : List Event} {n k : Nat} {w : Db} {db : Dur.Db} {H : List Wal.Rec}
    (h : Rel env E A B n w db H k) (hl : Limits env E) (hn : n + 1 < 4294967296) {op : Op} (hc : Called env w op)
    (hq : Quiet env.crcOn w op) (hs : (B ++ tried [op]).Sublist E) :
    ∃ w' db' H' k', step env w op = .ok w' ∧ Rel env E (A ++ accepted [op]) (B ++ tried [op]) (n + 1) w' db' H' k' := by
  obtain ⟨fs, hfs⟩ := h.log
  have hlsn := h.lsn
  cases op with
  | log es =>
    obtain ⟨c1, c2, c3⟩ := hc
    have hp : db.pending = none := by rw [← h.pending]; exact c1
    have hacc : accepted [Op.log es] = es.map (·.event) := by simp [accepted]
    have htr : tried [Op.log es] = es.map (·.event) := by simp [tried]
    rw [htr] at hs ⊢
    rw [hacc]
    have hwf : ∀ e ∈ es.map (·.event), WF e := by
      intro e he
      obtain ⟨x, hx, rfl⟩ := List.mem_map.1 he
      exact c3.2.1 x hx
    obtain ⟨m, m1, m2⟩ := puts_rel hl (es.map (·.event)) B w db.slots h.map hwf hs
    obtain ⟨s', fs', s1, s2, s3⟩ := write_rel hfs h.inv hp (clean_torn hfs hq) c2 c3 (by omega)
    have hne : es.map (·.event) ≠ [] := by simpa using c3.1
    have hlog : Dur.log env.iv db (es.map (·.event)) =
        { ((es.map (·.event)).foldl (Dur.putEvent env.iv) db).append (.write (db.lsn + 1) (es.map (·.event)).length (es.map (·.event)))
          with pending := some (db.lsn + 1, es.map (·.event)) } := by
      unfold Dur.log
      rw [hp]
    refine ⟨{ w with map := m, wal := s', pending := some (s'.lsn, es.map (·.event)) }, Dur.log env.iv db (es.map (·.event)), _, k,
      ?_, ?_, h.names, ?_, ⟨fs', s3⟩, ?_, ?_, Dur.log_inv h.inv hp hne, ?_, hs, h.acc.append (List.Sublist.refl _)⟩
    · show log env w es = _
      unfold log
      rw [c1]
      dsimp only
      rw [m1]
      simp only [Res.bind_ok]
      rw [s1]
      rfl
    · have hsl : (Dur.log env.iv db (es.map (·.event))).slots =
          fun q => (es.map (·.event)).foldl (Dur.putOne env.iv q) (db.slots q) := by
        funext q
        rw [hlog, ← Dur.puts_slots]
        rfl
      rw [hsl]
      exact m2.mono (List.Sublist.refl _) (Nat.le_succ _)
    · rw [hlog]
      dsimp only
      rw [s2]
    · rw [← s3.lsn, s2]
      omega
    · rw [evs_map_append, h.hist, Dur.evs_write, List.map_map]
      congr 1
      show (es.map (·.event)).map (fun e => e) = _
      rw [List.map_id']
    · intro e he
      rcases List.mem_append.1 he with he | he
      · exact h.wf e he
      · exact hwf e he
  | commit =>
    have hacc : accepted [Op.commit] = [] := rfl
    have htr : tried [Op.commit] = [] := rfl
    rw [htr, List.append_nil] at hs ⊢
    rw [hacc, List.append_nil]
    show ∃ w' db' H' k', commit w = .ok w' ∧ _
    unfold commit
    cases hp : w.pending with
    | none => exact ⟨w, db, H, k, rfl, h.more (Nat.le_succ _)⟩
    | some b =>
      obtain ⟨l, es⟩ := b
      have hpd : db.pending = some (l, es) := by rw [← h.pending]; exact hp
      obtain ⟨H0, c, hH⟩ := h.inv.pending l es hpd
      have hmem : ∀ e ∈ es, (l, e) ∈ evs H := by
        intro e he
        rw [hH, Dur.evs_append, Dur.evs_write]
        exact List.mem_append_right _ (List.mem_map.2 ⟨e, he, rfl⟩)
      obtain ⟨m, m1, m2⟩ := follows_rel (l := l) hl es w db.slots h.map
        (fun e he => (h.acc.trans h.sub).subset (by rw [← h.hist]; exact List.mem_map.2 ⟨(l, e), hmem e he, rfl⟩))
        (fun e he => Dur.has h.inv.writes (h.inv.slots _) (hmem e he) rfl)
      have hcm : Dur.commit env.iv db = { es.foldl (Dur.followEvent env.iv l) db with pending := none } := by
        unfold Dur.commit
        rw [hpd]
      obtain ⟨q1, q2, q3, _⟩ := Dur.follows_rest env.iv l es db
      refine ⟨{ w with map := m, pending := none }, Dur.commit env.iv db, H, k, ?_, ?_, h.names, ?_, ⟨fs, ?_⟩, ?_, h.hist,
        Dur.commit_inv h.inv, h.wf, h.sub, h.acc⟩
      · dsimp only
        rw [m1]
        rfl
      · have hsl : (Dur.commit env.iv db).slots = fun q => es.foldl (Dur.followOne env.iv q l) (db.slots q) := by
          funext q
          rw [hcm, ← Dur.follows_slots]
        rw [hsl]
        exact m2.mono (List.Sublist.refl _) (Nat.le_succ _)
      · rw [hcm]
      · refine hfs.congr ?_ ?_ ?_
        · rw [hcm]; exact q1
        · rw [hcm]; exact q2
        · rw [hcm]; exact q3
      · rw [hcm]
        dsimp only
        rw [q3]
        omega
  | rotate wm =>
    have hacc : accepted [Op.rotate wm] = [] := rfl
    have htr : tried [Op.rotate wm] = [] := rfl
    rw [htr, List.append_nil] at hs ⊢
    rw [hacc, List.append_nil]
    obtain ⟨db', fs', g1, g2, g3, g4, g5⟩ := rotate_rel hfs h.inv (fun f hf => by
      rcases hq with hq | hq
      · exact .inr (clean_torn hfs hq f hf)
      · exact .inl (begun_some hfs hq f hf)) wm (by omega)
    refine ⟨_, db', H, k, rfl, ?_, h.names, ?_, ⟨fs', g1⟩, ?_, h.hist, g2, h.wf, h.sub, h.acc⟩
    · rw [g3]
      exact h.map.mono (List.Sublist.refl _) (Nat.le_succ _)
    · rw [g4]
      exact h.pending
    · rw [g5]
      omega
  | gc =>
    have hacc : accepted [Op.gc] = [] := rfl
    have htr : tried [Op.gc] = [] := rfl
    rw [htr, List.append_nil] at hs ⊢
    rw [hacc, List.append_nil]
    obtain ⟨s, fs', k', g1, g2, g3⟩ := gc_rel h.map hfs h.inv hq.1 h.pending hq.2
    exact ⟨{ w with wal := s }, Dur.gc db, H, k', g1, h.map.mono (List.Sublist.refl _) (Nat.le_succ _), h.names, h.pending,
      ⟨fs', g2⟩, Nat.le_succ_of_le h.lsn, h.hist, g3, h.wf, h.sub, h.acc⟩
  | begin_ id =>
    have hacc : accepted [Op.begin_ id] = [] := rfl
    have htr : tried [Op.begin_ id] = [] := rfl
    rw [htr, List.append_nil] at hs ⊢
    rw [hacc, List.append_nil]
    rcases not_failed h.map hl hc hq with hnf | hnf
    case inr =>
      refine ⟨w, db, H, k, ?_, h.more (Nat.le_succ _)⟩
      show begin_ w id = _
      unfold begin_ onPart
      rw [hnf]
      rfl
    obtain ⟨w', g1, g2⟩ := begin_rel h.map hl hc h.pending hnf
    refine ⟨w', _, H, k, g1, (h.stepped g2 (Nat.le_refl _) ?_ (Dur.begin_inv h.inv _)).more (Nat.le_succ _)⟩
    unfold Dur.begin_
    split
    · exact ⟨rfl, rfl, rfl, rfl⟩
    · exact onPart_rest _ _ _
  | merge id pad tc tr =>
    have hacc : accepted [Op.merge id pad tc tr] = [] := rfl
    have htr : tried [Op.merge id pad tc tr] = [] := rfl
    rw [htr, List.append_nil] at hs ⊢
    rw [hacc, List.append_nil]
    obtain ⟨c1, c2, c3, c4⟩ := hc
    by_cases hnf : w.phase (partOf env.iv id) = .failed
    · refine ⟨w, db, H, k, ?_, h.more (Nat.le_succ _)⟩
      show merge env w id pad tc tr = _
      unfold merge
      exact onPart_same h.map hl c1 (fun s fs => by rw [hnf])
    obtain ⟨w', g1, g2⟩ := merge_rel h.map hl c1 h.inv (by omega) h.wf h.sub hn hnf c2 c3 c4
    exact ⟨w', _, H, k, g1, h.stepped g2 (Nat.le_succ _) (onPart_rest _ _ _) (Dur.merge_inv h.inv _)⟩
  | apply_ id =>
    have hacc : accepted [Op.apply_ id] = [] := rfl
    have htr : tried [Op.apply_ id] = [] := rfl
    rw [htr, List.append_nil] at hs ⊢
    rw [hacc, List.append_nil]
    by_cases hnf : w.phase (partOf env.iv id) = .failed
    · refine ⟨w, db, H, k, ?_, h.more (Nat.le_succ _)⟩
      show apply_ w id = _
      unfold apply_
      exact onPart_same h.map hl hc (fun s fs => by rw [hnf])
    obtain ⟨w', g1, g2⟩ := apply_rel h.map hl hc h.pending hnf
    refine ⟨w', _, H, k, g1, (h.stepped g2 (Nat.le_refl _) ?_ (Dur.apply_inv h.inv _)).more (Nat.le_succ _)⟩
    unfold Dur.apply_
    split
    · exact ⟨rfl, rfl, rfl, rfl⟩
    · exact onPart_rest _ _ _
  | complete id =>
    have hacc : accepted [Op.complete id] = [] := rfl
    have htr : tried [Op.complete id] = [] := rfl
    rw [htr, List.append_nil] at hs ⊢
    rw [hacc, List.append_nil]
    obtain ⟨w', g1, g2⟩ := complete_rel h.map hl hc
    exact ⟨w', _, H, k, g1, (h.stepped g2 (Nat.le_refl _) (onPart_rest _ _ _) (Dur.complete_inv h.inv _)).more (Nat.le_succ _)⟩
  | delete id =>
    have hacc : accepted [Op.delete id] = [] := rfl
    have htr : tried [Op.delete id] = [] := rfl
    rw [htr, List.append_nil] at hs ⊢
    rw [hacc, List.append_nil]
    obtain ⟨w', g1, g2⟩ := delete_rel h.map hl hc
    exact ⟨w', _, H, k, g1, (h.stepped g2 (Nat.le_refl _) (onPart_rest _ _ _) (Dur.delete_inv h.inv _)).more (Nat.le_succ _)⟩
  | finish id =>
    have hacc : accepted [Op.finish id] = [] := rfl
    have htr : tried [Op.finish id] = [] := rfl
    rw [htr, List.append_nil] at hs ⊢
    rw [hacc, List.append_nil]
    obtain ⟨w', g1, g2⟩ := finish_rel h.map hl hc
    exact ⟨w', _, H, k, g1, (h.stepped g2 (Nat.le_refl _) (onPart_rest _ _ _) (Dur.finish_inv h.inv _)).more (Nat.le_succ _)⟩
  | crash =>
    have hacc : accepted [Op.crash] = [] := rfl
    have htr : tried [Op.crash] = [] := rfl
    rw [htr, List.append_nil] at hs ⊢
    rw [hacc, List.append_nil]
    obtain ⟨w', db', g1, g2⟩ := crash_rel h hl hc
    exact ⟨w', db', H, k, g1, g2.more (Nat.le_succ _)⟩
  | tear es m =>
    have hacc : accepted [Op.tear es m] = [] := rfl
    have htr : tried [Op.tear es m] = [] := rfl
    rw [htr, List.append_nil] at hs ⊢
    rw [hacc, List.append_nil]
    obtain ⟨w', db', g1, g2⟩ := torn_rel h hl hn hc hq
    exact ⟨w', db', H, k, g1, g2.more (Nat.le_succ _)⟩
  | cut id b =>
    have hacc : accepted [Op.cut id b] = [] := rfl
    have htr : tried [Op.cut id b] = [] := rfl
    rw [htr, List.append_nil] at hs ⊢
    rw [hacc, List.append_nil]
    obtain ⟨w', db', g1, g2⟩ := cut_rel h hl hc.1 hc.2
    exact ⟨w', db', H, k, g1, g2.more (Nat.le_succ _)⟩
  | fail id b =>
    have hacc : accepted [Op.fail id b] = [] := rfl
    have htr : tried [Op.fail id b] = [] := rfl
    rw [htr, List.append_nil] at hs ⊢
    rw [hacc, List.append_nil]
    by_cases hnf : w.phase (partOf env.iv id) = .failed
    · refine ⟨w, db, H, k, ?_, h.more (Nat.le_succ _)⟩
      show fail w id b = _
      unfold fail
      exact onPart_same h.map hl hc (fun s fs => by rw [hnf])
    cases b with
    | some b =>
      obtain ⟨w', g1, g2⟩ := failed_rel (b := b) h.map hl hc hnf
      exact ⟨w', _, H, k, g1, (h.stepped g2 (Nat.le_refl _) (onPart_rest _ _ _) (Dur.merge_inv h.inv _)).more (Nat.le_succ _)⟩
    | none =>
      obtain ⟨w', g1, g2⟩ := failed_none h.map hl hc hnf
      exact ⟨w', db, H, k, g1, (h.stepped g2 (Nat.le_refl _) ⟨rfl, rfl, rfl, rfl⟩ h.inv).more (Nat.le_succ _)⟩
  | reject es =>
    obtain ⟨c1, c2⟩ := hc
    obtain ⟨q1, q2⟩ := hq
    have hacc : accepted [Op.reject es] = [] := rfl
    have htr : tried [Op.reject es] = es := by simp [tried]
    rw [htr] at hs ⊢
    rw [hacc, List.append_nil]
    obtain ⟨m, m1, m2⟩ := back_rel hl es B w db.slots h.map c2 hs
      (room_rel h.map hl (fun e he => hs.subset (by simp [he])) q2)
    refine ⟨{ w with map := m }, touched env.iv db es, H, k, ?_, m2.mono (List.Sublist.refl _) (Nat.le_succ _), h.names, h.pending, ⟨fs, hfs.congr rfl rfl rfl⟩,
      Nat.le_succ_of_le h.lsn, h.hist, touch_inv h.inv _, ?_, hs, h.acc.trans (List.sublist_append_left _ _)⟩
    · show reject env w es = _
      have : reject env w es = if es = [] then .ub "engine_rollback: log_last of an empty log" else putBack env w es := by
        unfold reject
        rw [c1]
      rw [this, if_neg q1]
      exact m1
    · intro e he
      rcases List.mem_append.1 he with he | he
      · exact h.wf e he
      · exact c2 e he
  | fault es m =>
    obtain ⟨c1, c2, c3⟩ := hc
    obtain ⟨q1, q2, q3⟩ := hq
    have hacc : accepted [Op.fault es m] = [] := rfl
    have htr : tried [Op.fault es m] = es.map (·.event) := by simp [tried]
    rw [htr] at hs ⊢
    rw [hacc, List.append_nil]
    have hwf : ∀ e ∈ es.map (·.event), WF e := by
      intro e he
      obtain ⟨x, hx, rfl⟩ := List.mem_map.1 he
      exact c3.2.1 x hx
    obtain ⟨mp, m1, m2⟩ := back_rel hl (es.map (·.event)) B w db.slots h.map hwf hs
      (room_rel h.map hl (fun e he => hs.subset (List.mem_append_right _ he)) q2)
    obtain ⟨s', fs', s1, s2⟩ := fail_rel hfs (clean_torn hfs q1) c2 c3 (by omega) q3
    refine ⟨{ w with map := mp, wal := s' }, touched env.iv db (es.map fun x : Wal.LogEvent => x.event), H, k, ?_, m2.mono (List.Sublist.refl _) (Nat.le_succ _), h.names, h.pending,
      ⟨fs', s2.congr rfl rfl rfl⟩, Nat.le_succ_of_le h.lsn, h.hist, touch_inv h.inv _, ?_, hs,
      h.acc.trans (List.sublist_append_left _ _)⟩
    · show fault env w es m = _
      have : fault env w es m = (w.wal.fail (fun l => Wal.batch env.crcOn l es) m).bind fun s =>
          (putBack env w (es.map (·.event))).bind fun w => .ok { w with wal := s } := by
        unfold fault
        rw [c1]
      rw [this, s1]
      simp only [Res.bind_ok]
      rw [m1]
      rfl
    · intro e he
      rcases List.mem_append.1 he with he | he
      · exact h.wf e he
      · exact hwf e he

theorem accepted_cons (op : Op) (ops : List Op) : accepted (op :: ops) = accepted [op] ++ accepted ops := by
  cases op <;> simp [accepted]

theorem tried_cons (op : Op) (ops : List Op) : tried (op :: ops) = tried [op] ++ tried ops := by
  cases op <;> simp [tried]

/-- Histories. -/
theorem run_rel {env : Env} {E : List Event} (hl : Limits env E) : ∀ (ops : List Op) (A B : List Event) (n k : Nat) (w : Db)
    (db : Dur.Db) (H : List Wal.Rec), Rel env E A B n w db H k → n + ops.length < 4294967296 →
    Along env (Called env) w ops → Along env (Quiet env.crcOn) w ops → (B ++ tried ops).Sublist E →
    ∃ w' db' H' k' n', run env w ops = .ok w' ∧ Rel env E (A ++ accepted ops) (B ++ tried ops) n' w' db' H' k' := by
  intro ops
  induction ops with
  | nil =>
    intro A B n k w db H h _ _ _ _
    exact ⟨w, db, H, k, n, rfl, by simpa [accepted, tried] using h⟩
  | cons op ops ih =>
    intro A B n k w db H h hn hc hq hs
    rw [tried_cons, ← List.append_assoc] at hs ⊢
    rw [accepted_cons, ← List.append_assoc]
    simp only [List.length_cons] at hn
    obtain ⟨w1, db1, H1, k1, s1, s2⟩ := step_rel h hl (by omega) hc.1 hq.1 ((List.sublist_append_left _ _).trans hs)
    obtain ⟨w2, db2, H2, k2, n2, t1, t2⟩ := ih _ _ _ _ _ _ _ s2 (by omega) (hc.2 w1 s1) (hq.2 w1 s1) hs
    refine ⟨w2, db2, H2, k2, n2, ?_, t2⟩
    unfold run
    rw [s1]
    exact t1

end Verif.Whole
