import Verif.Proofs.WholeStep
import Verif.Proofs.WalRun

/-! Helper lemmas: the log of the whole database. -/
namespace Verif.Whole
open C22 (LogFile Entry LogWF Holds entriesOf content)
open C23 (dat dat_eq holds_iff Batches)

structure LogRel (crcOn : Bool) (s : Wal.State) (db : Dur.Db) (fs : List LogFile) : Prop where
  wf : LogWF crcOn fs
  holds : Holds crcOn fs s.dir
  batches : Batches (entriesOf fs)
  wal : db.wal = fs.map fun f => (f.id, f.entries.map (·.record))
  cur : ∃ fs0 f z, fs = fs0 ++ [f] ∧ s.current = some ⟨f.id, (dat crcOn f).length, z⟩ ∧ z ≤ (dat crcOn f).length ∧ f.id = db.cur
  lsn : s.lsn = db.lsn

theorem record_lsn (e : Entry) : e.record.lsn = e.lsn := by cases e <;> rfl

theorem entry_le {iv n : Nat} {db : Dur.Db} {H : List Wal.Rec} (hi : Dur.Inv iv db H n) {fs : List LogFile}
    (hw : db.wal = fs.map fun f => (f.id, f.entries.map (·.record))) : ∀ e ∈ entriesOf fs, e.lsn ≤ db.lsn := by
  intro e he
  obtain ⟨f, hf, he⟩ := List.mem_flatMap.1 he
  have h1 : e.record ∈ H.drop n := by
    rw [← hi.wal, hw]
    exact List.mem_flatMap.2 ⟨_, List.mem_map.2 ⟨f, hf, rfl⟩, List.mem_map.2 ⟨e, he, rfl⟩⟩
  rw [hi.eq, ← record_lsn]
  exact Dur.le_last hi.asc (List.mem_of_mem_drop h1)

/-- The last file gets a further record. -/
theorem wf_more {crcOn : Bool} {fs0 : List LogFile} {f : LogFile} {e : Entry} (h : LogWF crcOn (fs0 ++ [f]))
    (hg : e.Good crcOn) (hl : ∀ a ∈ entriesOf (fs0 ++ [f]), a.lsn < e.lsn) (hid : f.id ≤ e.lsn) :
    LogWF crcOn (fs0 ++ [{ f with entries := f.entries ++ [e] }]) := by
  obtain ⟨⟨h1, h2⟩, h3⟩ := h
  rw [List.pairwise_append] at h1
  refine ⟨⟨?_, ?_⟩, ?_⟩
  · rw [List.pairwise_append]
    exact ⟨h1.1, by simp, fun a ha b hb => by
      simp only [List.mem_cons, List.not_mem_nil, or_false] at hb
      subst hb
      exact h1.2.2 a ha f (by simp)⟩
  · intro g hg'
    rcases List.mem_append.1 hg' with hg' | hg'
    · exact h2 g (by simp [hg'])
    · simp only [List.mem_cons, List.not_mem_nil, or_false] at hg'
      subst hg'
      obtain ⟨a1, a2, a3⟩ := h2 f (by simp)
      refine ⟨a1, ?_, ?_⟩
      · dsimp only
        rw [List.pairwise_append]
        refine ⟨a2, by simp, fun a ha b hb => ?_⟩
        simp only [List.mem_cons, List.not_mem_nil, or_false] at hb
        subst hb
        exact hl a (by rw [C23.entriesOf_append]; simp [entriesOf, ha])
      · intro a ha
        rcases List.mem_append.1 ha with ha | ha
        · exact a3 a ha
        · simp only [List.mem_cons, List.not_mem_nil, or_false] at ha
          subst ha
          exact hid
  · intro g hg'
    rcases List.mem_append.1 hg' with hg' | hg'
    · exact h3 g (by simp [hg'])
    · simp only [List.mem_cons, List.not_mem_nil, or_false] at hg'
      subst hg'
      obtain ⟨a1, a2⟩ := h3 f (by simp)
      refine ⟨fun a ha => ?_, a2⟩
      rcases List.mem_append.1 ha with ha | ha
      · exact a1 a ha
      · simp only [List.mem_cons, List.not_mem_nil, or_false] at ha
        subst ha
        exact hg

theorem write_rel {crcOn : Bool} {iv n : Nat} {s : Wal.State} {db : Dur.Db} {fs : List LogFile} {H : List Wal.Rec}
    (h : LogRel crcOn s db fs) (hi : Dur.Inv iv db H n) (hp : db.pending = none)
    (ht : ∀ f, fs.getLast? = some f → f.torn = []) {es : List Wal.LogEvent}
    (h1 : Wal.Calm crcOn es) (h2 : Wal.Fits es) (hlt : db.lsn + 1 < 18446744073709551615) :
    ∃ s' fs', s.write (fun l => Wal.batch crcOn l es) = .ok s' ∧ s'.lsn = db.lsn + 1 ∧
      LogRel crcOn s' (Dur.log iv db (es.map (·.event))) fs' := by
  obtain ⟨fs0, f, z, rfl, hcur, hz, hid⟩ := h.cur
  have hgood : (Entry.write (s.lsn + 1) es).Good crcOn := ⟨by rw [h.lsn]; omega, h1, h2⟩
  obtain ⟨b, hb, _⟩ := C22.entry_rec hgood
  have hle := entry_le hi h.wal
  have hcl := hi.curLe
  have hlsn := h.lsn
  have hwf' := wf_more h.wf hgood (fun a ha => by
    have := hle a ha
    show a.lsn < s.lsn + 1
    omega) (by show f.id ≤ s.lsn + 1; omega)
  obtain ⟨g1, g2, g3⟩ := (holds_iff _ _).1 h.holds
  obtain ⟨bs, hc⟩ := g1 f (by simp)
  have htorn := ht f (by simp)
  have hids := C23.ids_lt h.wf.1
  have hdat : dat crcOn { f with entries := f.entries ++ [Entry.write (s.lsn + 1) es] } = dat crcOn f ++ b := by
    rw [dat_eq hc, dat_eq (f := { f with entries := f.entries ++ [Entry.write (s.lsn + 1) es] }) (C23.content_append hb _ _ hc), htorn]
    simp
  refine ⟨_, fs0 ++ [{ f with entries := f.entries ++ [Entry.write (s.lsn + 1) es] }], C23.write_eq hb hcur,
    by dsimp only; omega, hwf', ?_, ?_, ?_, ?_, ?_⟩
  · rw [holds_iff]
    refine ⟨?_, ?_, ?_⟩
    · intro g hg
      rcases List.mem_append.1 hg with hg | hg
      · exact g1 g (by simp [hg])
      · simp only [List.mem_cons, List.not_mem_nil, or_false] at hg
        subst hg
        exact ⟨_, C23.content_append hb _ _ hc⟩
    · simp only [C23.putAt]
      rw [g2]; simp
    · simp only [C23.putAt]
      rw [g3, C23.map_last hids rfl, List.map_append]
      congr 1
      simp only [List.map_cons, List.map_nil]
      rw [hdat]
  · intro e he
    rw [C23.entriesOf_append] at he
    have hb0 := h.batches
    simp only [entriesOf, List.mem_append, List.flatMap_cons, List.flatMap_nil, List.append_nil, List.mem_singleton] at he
    rcases he with he | he | he
    · exact hb0 e (by rw [C23.entriesOf_append]; exact List.mem_append_left _ he)
    · exact hb0 e (by rw [C23.entriesOf_append]; simp [entriesOf, he])
    · exact ⟨_, _, he⟩
  · unfold Dur.log
    rw [hp]
    obtain ⟨r1, r2, r3, _⟩ := Dur.puts_rest iv (es.map (·.event)) db
    simp only [Dur.Db.append]
    rw [r1, r2, h.wal, List.map_append, List.map_append, List.map_append]
    congr 1
    · rw [List.map_map]
      apply List.map_congr_left
      intro g hg
      rw [List.pairwise_append] at hids
      have := hids.2.2 g hg f (by simp)
      simp only [Function.comp]
      rw [if_neg (by omega)]
    · simp only [List.map_cons, List.map_nil, hid, if_true, List.map_append, Entry.record, List.length_map, hlsn]
  · refine ⟨fs0, _, z + b.length, rfl, ?_, ?_, ?_⟩
    · dsimp only
      rw [hdat, List.length_append]
    · rw [hdat, List.length_append]
      omega
    · unfold Dur.log
      rw [hp]
      obtain ⟨r1, r2, r3, _⟩ := Dur.puts_rest iv (es.map (·.event)) db
      simp only [Dur.Db.append]
      rw [r2]
      exact hid
  · unfold Dur.log
    rw [hp]
    obtain ⟨r1, r2, r3, _⟩ := Dur.puts_rest iv (es.map (·.event)) db
    simp only [Dur.Db.append]
    rw [r3]
    omega

theorem rotate_rel {crcOn : Bool} {iv n : Nat} {s : Wal.State} {db : Dur.Db} {fs : List LogFile} {H : List Wal.Rec}
    (h : LogRel crcOn s db fs) (hi : Dur.Inv iv db H n)
    (ht : ∀ f, fs.getLast? = some f → f.entries ≠ [] ∨ f.torn = []) (wm : Nat) (hlt : db.lsn + 1 < 18446744073709551615) :
    ∃ db' fs', LogRel crcOn (s.rotate wm) db' fs' ∧ Dur.Inv iv db' H n ∧ db'.slots = db.slots ∧ db'.pending = db.pending ∧
      db'.lsn = db.lsn := by
  obtain ⟨fs0, f, z, rfl, hcur, hz, hid⟩ := h.cur
  by_cases hwm : z ≤ wm
  · have : s.rotate wm = s := by
      unfold Wal.State.rotate
      rw [if_pos (by simp [hcur, hwm])]
    rw [this]
    exact ⟨db, _, h, hi, rfl, rfl, rfl⟩
  · obtain ⟨g1, g2, g3⟩ := (holds_iff _ _).1 h.holds
    obtain ⟨bs, hc⟩ := g1 f (by simp)
    have hne : f.entries ≠ [] := by
      intro he
      rw [he] at hc
      have := Res.ok.inj hc
      subst this
      rcases ht f (by simp) with ht | ht
      · exact ht he
      rw [dat_eq (f := f) (bs := []) (by rw [he]; rfl), ht] at hz
      simp at hz
      omega
    have hle := entry_le hi h.wal
    have hlsn := h.lsn
    have hidsP := C23.ids_lt h.wf.1
    have hids : ∀ g ∈ fs0 ++ [f], g.id < s.lsn + 1 := by
      obtain ⟨e, he⟩ := List.exists_mem_of_ne_nil _ hne
      have h1 := hle e (by rw [C23.entriesOf_append]; simp [entriesOf, he])
      have h2 := (h.wf.1.2 f (by simp)).2.2 e he
      intro g hg
      rcases List.mem_append.1 hg with hg | hg
      · have := hidsP
        rw [List.pairwise_append] at this
        have := this.2.2 g hg f (by simp)
        omega
      · simp only [List.mem_cons, List.not_mem_nil, or_false] at hg
        subst hg
        omega
    have hwf' := C23.wf_new (id := s.lsn + 1) h.wf hids (fun e he => by have := hle e he; omega) (by omega)
    have hrot : s.rotate wm =
        { s with
          dir := { list := s.dir.list ++ [s.lsn + 1], files := s.dir.files ++ [(s.lsn + 1, [])] }
          current := some ⟨s.lsn + 1, 0, 0⟩ } := by
      unfold Wal.State.rotate
      rw [if_neg (by simp only [hcur, Option.any_some, decide_eq_true_eq]; omega)]
      rw [C23.idAdd_append _ _ (by
        rw [g2]; intro x hx
        obtain ⟨g, hg, rfl⟩ := List.mem_map.1 hx
        exact hids g hg)]
      rw [if_neg (by
        intro h
        rw [List.any_eq_true] at h
        obtain ⟨g, hg, hg'⟩ := h
        rw [g3] at hg
        obtain ⟨g', hg1, rfl⟩ := List.mem_map.1 hg
        have := hids g' hg1
        simp at hg'
        omega)]
    have hdr : Dur.rotate db = .ok { db with wal := db.wal ++ [(db.lsn + 1, [])], cur := db.lsn + 1 } := by
      have hall : ∀ x ∈ db.wal, x.1 < db.lsn + 1 := by
        intro x hx
        rw [h.wal] at hx
        obtain ⟨g, hg, rfl⟩ := List.mem_map.1 hx
        have := hids g hg
        dsimp only
        omega
      unfold Dur.rotate
      rw [if_neg, if_neg, Dur.takeWhile_all, Dur.dropWhile_all]
      · simp
      · intro x hx; simpa using hall x hx
      · intro x hx; simpa using hall x hx
      · intro hx
        rw [List.any_eq_true] at hx
        obtain ⟨x, hx, e⟩ := hx
        have := hall x hx
        simp at e
        omega
      · intro hx
        rw [List.any_eq_true] at hx
        obtain ⟨x, hx, e⟩ := hx
        simp only [Bool.and_eq_true, beq_iff_eq, List.isEmpty_iff] at e
        rw [h.wal] at hx
        obtain ⟨g, hg, rfl⟩ := List.mem_map.1 hx
        simp only [List.map_eq_nil_iff] at e
        rcases List.mem_append.1 hg with hg | hg
        · rw [List.pairwise_append] at hidsP
          have := hidsP.2.2 g hg f (by simp)
          omega
        · simp only [List.mem_singleton] at hg
          subst hg
          exact hne e.2
    obtain ⟨db', e1, e2, e3⟩ := Dur.rotate_inv hi
    rw [hdr] at e1
    have e1 := Res.ok.inj e1
    subst e1
    rw [hrot]
    refine ⟨{ db with wal := db.wal ++ [(db.lsn + 1, [])], cur := db.lsn + 1 }, fs0 ++ [f] ++ [⟨s.lsn + 1, [], []⟩], ⟨hwf', ?_, ?_, ?_, ?_, hlsn⟩, e2, rfl, rfl, rfl⟩
    · rw [holds_iff]
      refine ⟨?_, ?_, ?_⟩
      · intro g hg
        rcases List.mem_append.1 hg with hg | hg
        · exact g1 g hg
        · simp only [List.mem_cons, List.not_mem_nil, or_false] at hg
          subst hg
          exact ⟨[], rfl⟩
      · dsimp only; rw [g2]; simp
      · dsimp only; rw [g3]; simp [dat, content]
    · intro e he
      rw [C23.entriesOf_append] at he
      have : entriesOf [(⟨s.lsn + 1, [], []⟩ : LogFile)] = [] := rfl
      rw [this, List.append_nil] at he
      exact h.batches e he
    · dsimp only
      rw [h.wal, List.map_append]
      simp [hlsn]
    · exact ⟨_, _, _, rfl, rfl, Nat.le_refl _, by dsimp only; omega⟩

theorem walGc_rel {crcOn : Bool} {s : Wal.State} {db : Dur.Db} {fs : List LogFile}
    (h : LogRel crcOn s db fs) {m : Nat} (hm : m = Dur.lsnMin db) : ∃ fs', LogRel crcOn (walGc s m) (Dur.gc db) fs' := by
  obtain ⟨g1, g2, g3⟩ := (holds_iff _ _).1 h.holds
  have hl : s.dir.list = db.wal.map (·.1) := by
    rw [g2, h.wal, List.map_map]
    rfl
  have hidsP := C23.ids_lt h.wf.1
  obtain ⟨fs0, f, z, hfs, hcur, hz, hid⟩ := h.cur
  have hk : Wal.gcCount m s.dir.list < fs.length := by
    have := Dur.gcCount_lt m s.dir.list (by rw [g2, hfs]; simp)
    rw [g2, List.length_map] at this
    rw [g2]
    exact this
  generalize hkk : Wal.gcCount m s.dir.list = k at hk
  have hsub : (fs.drop k).Sublist fs := List.drop_sublist _ _
  have hmem : ∀ g ∈ fs.drop k, g ∈ fs := fun g hg => hsub.subset hg
  refine ⟨fs.drop k, ?_, ?_, ?_, ?_, ?_, h.lsn⟩
  · exact ⟨⟨h.wf.1.1.sublist hsub, fun g hg => h.wf.1.2 g (hmem g hg)⟩, fun g hg => h.wf.2 g (hmem g hg)⟩
  · rw [holds_iff]
    refine ⟨fun g hg => g1 g (hmem g hg), ?_, ?_⟩
    · simp only [walGc, Wal.gcBetween]
      rw [hkk, g2, List.map_drop]
    · simp only [walGc, Wal.gcBetween]
      rw [hkk, g2, g3]
      have hsplit : fs = fs.take k ++ fs.drop k := (List.take_append_drop k fs).symm
      rw [hsplit, List.pairwise_append] at hidsP
      have e1 : (fs.map fun f => (f.id, dat crcOn f)) =
          ((fs.take k).map fun f => (f.id, dat crcOn f)) ++ ((fs.drop k).map fun f => (f.id, dat crcOn f)) := by
        rw [← List.map_append, ← hsplit]
      rw [e1, List.filter_append, List.filter_eq_nil_iff.2, List.nil_append, List.filter_eq_self.2]
      · intro x hx
        obtain ⟨g, hg, rfl⟩ := List.mem_map.1 hx
        simp only [Bool.not_eq_true', ← List.map_take]
        rw [Bool.eq_false_iff]
        intro hc
        rw [List.contains_iff_mem] at hc
        obtain ⟨g', hg', e⟩ := List.mem_map.1 hc
        have := hidsP.2.2 g' hg' g hg
        omega
      · intro x hx
        obtain ⟨g, hg, rfl⟩ := List.mem_map.1 hx
        simp only [← List.map_take, Bool.not_eq_true']
        rw [Bool.eq_false_iff, Classical.not_not, List.contains_iff_mem]
        exact List.mem_map.2 ⟨g, hg, rfl⟩
  · intro e he
    obtain ⟨g, hg, he⟩ := List.mem_flatMap.1 he
    exact h.batches e (List.mem_flatMap.2 ⟨g, hmem g hg, he⟩)
  · unfold Dur.gc
    dsimp only
    rw [← hm, ← hl, hkk, h.wal, List.map_drop]
  · refine ⟨fs0.drop k, f, z, ?_, hcur, hz, hid⟩
    rw [hfs, List.drop_append_of_le_length]
    rw [hfs, List.length_append, List.length_singleton] at hk
    omega

theorem content_len {crcOn : Bool} : ∀ (es : List Entry) (bs : Bytes), (∀ e ∈ es, e.Good crcOn) → content crcOn es = .ok bs →
    es.length ≤ bs.length := by
  intro es
  induction es with
  | nil => intro bs _ _; simp
  | cons e es ih =>
    intro bs hg hc
    simp only [content] at hc
    obtain ⟨b1, h1, hc⟩ := Res.bind_eq_ok.1 hc
    obtain ⟨b2, h2, hc⟩ := Res.bind_eq_ok.1 hc
    have := Res.ok.inj hc
    subst this
    have := ih b2 (fun a ha => hg a (by simp [ha])) h2
    obtain ⟨b, hb, hr⟩ := C22.entry_rec (hg e (by simp))
    rw [h1] at hb
    have hb := Res.ok.inj hb
    subst hb
    have : 1 ≤ b1.length := by
      have := C22.rec_ge hr
      omega
    simp only [List.length_cons, List.length_append]
    omega

theorem fuel_ok {crcOn : Bool} {fs : List LogFile} (h : LogWF crcOn fs) {d : Wal.Dir} (hh : Holds crcOn fs d) :
    (entriesOf fs).length ≤ logBytes d.files := by
  obtain ⟨g1, g2, g3⟩ := (holds_iff _ _).1 hh
  unfold logBytes
  rw [g3]
  have h2 := h.2
  clear g2 g3 hh h
  induction fs with
  | nil => simp [entriesOf]
  | cons f fs ih =>
    have := ih (fun g hg => g1 g (by simp [hg])) (fun g hg => h2 g (by simp [hg]))
    obtain ⟨bs, hc⟩ := g1 f (by simp)
    have h3 := content_len _ _ (h2 f (by simp)).1 hc
    have h4 : (dat crcOn f).length = bs.length + f.torn.length := by rw [dat_eq hc]; simp
    simp only [entriesOf, List.flatMap_cons, List.length_append, List.map_cons, List.sum_cons] at this ⊢
    omega

end Verif.Whole
