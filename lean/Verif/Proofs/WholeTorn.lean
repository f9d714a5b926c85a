import Verif.Proofs.C60
import Verif.Proofs.WholeLog

/-! Helper lemmas: whole and torn records in the current log file. -/
namespace Verif.Whole
open C22 (LogFile Entry LogWF Holds entriesOf content IsRec TornWF)
open C23 (dat dat_eq holds_iff Batches)

/-- Records with the same header have the same length. -/
theorem rec_length {crcOn : Bool} {b b' : Bytes} {e e' : Entry} (h : IsRec crcOn b e) (h' : IsRec crcOn b' e')
    (hh : b.take 21 = b'.take 21) : b.length = b'.length := by
  obtain ⟨w, r, h1, h2, h3⟩ := h.full
  obtain ⟨w', r', h1', h2', h3'⟩ := h'.full
  have e1 : b.take 21 = w.bytes := by
    rw [h2, List.take_left' (Wal.bytes_length w)]
  have e2 : b'.take 21 = w'.bytes := by
    rw [h2', List.take_left' (Wal.bytes_length w')]
  have a1 := Wal.head_at h1 []
  have a2 := Wal.head_at h1' []
  rw [← e1, hh, e2, a2] at a1
  have := Res.ok.inj a1
  rw [← h3, ← h3', this]

/-- A torn record does not begin with a whole one. -/
theorem torn_begin {crcOn : Bool} {t b r : Bytes} {e : Entry} (ht : TornWF crcOn t) (hb : IsRec crcOn b e)
    (h : t = b ++ r) : False := by
  have h21 := C22.rec_ge hb
  rcases ht with ht | ⟨e', b', n, hg, hb', hn, ht⟩
  · rw [ht] at h
    have := congrArg List.length h
    simp at this
    omega
  · obtain ⟨b2, hb2, hr⟩ := C22.entry_rec hg
    rw [hb'] at hb2
    have hb2 := Res.ok.inj hb2
    subst hb2
    have hlen := congrArg List.length (ht.symm.trans h)
    simp only [List.length_take, List.length_append] at hlen
    have : b'.length = b.length := by
      apply rec_length hr hb
      have := congrArg (List.take 21) (ht.symm.trans h)
      rw [List.take_take, List.take_append_of_le_length h21, Nat.min_eq_left (by omega)] at this
      exact this
    omega

theorem content_cons {crcOn : Bool} {e : Entry} {es : List Entry} {bs : Bytes} (h : content crcOn (e :: es) = .ok bs) :
    ∃ b b', e.bytes crcOn = .ok b ∧ content crcOn es = .ok b' ∧ bs = b ++ b' := by
  simp only [content] at h
  obtain ⟨b1, h1, h⟩ := Res.bind_eq_ok.1 h
  obtain ⟨b2, h2, h⟩ := Res.bind_eq_ok.1 h
  exact ⟨b1, b2, h1, h2, (Res.ok.inj h).symm⟩

theorem bytes_rec {crcOn : Bool} {e : Entry} {b : Bytes} (hg : e.Good crcOn) (h : e.bytes crcOn = .ok b) : IsRec crcOn b e := by
  obtain ⟨b', hb, hr⟩ := C22.entry_rec hg
  rw [h] at hb
  have hb := Res.ok.inj hb
  subst hb
  exact hr

/-- Bytes are whole records in one way. -/
theorem whole_torn {crcOn : Bool} : ∀ (A B : List Entry) (x t : Bytes), (∀ e ∈ A, e.Good crcOn) → (∀ e ∈ B, e.Good crcOn) →
    content crcOn A = .ok x → TornWF crcOn t → content crcOn B = .ok (x ++ t) → t = [] := by
  intro A
  induction A with
  | nil =>
    intro B x t _ hB hx ht hc
    have := Res.ok.inj hx
    subst this
    cases B with
    | nil => simpa [content] using hc.symm
    | cons e B =>
      obtain ⟨b, b', h1, _, h3⟩ := content_cons hc
      exact (torn_begin ht (bytes_rec (hB e (by simp)) h1) (by simpa using h3)).elim
  | cons a A ih =>
    intro B x t hA hB hx ht hc
    obtain ⟨b, x', h1, h2, rfl⟩ := content_cons hx
    have hr := bytes_rec (hA a (by simp)) h1
    have h21 := C22.rec_ge hr
    cases B with
    | nil =>
      have := Res.ok.inj hc
      have := congrArg List.length this
      simp at this
      omega
    | cons e B =>
      obtain ⟨b1, y', g1, g2, g3⟩ := content_cons hc
      have hr1 := bytes_rec (hB e (by simp)) g1
      have h21' := C22.rec_ge hr1
      have hlen : b.length = b1.length := by
        apply rec_length hr hr1
        have := congrArg (List.take 21) g3
        rw [List.append_assoc, List.take_append_of_le_length h21, List.take_append_of_le_length h21'] at this
        exact this
      rw [List.append_assoc] at g3
      have := List.append_inj g3 hlen
      rw [← this.2] at g2
      exact ih B x' t (fun e he => hA e (by simp [he])) (fun e he => hB e (by simp [he])) h2 ht g2

/-- The bytes of the current file. -/
theorem cur_bytes {crcOn : Bool} {s : Wal.State} {db : Dur.Db} {fs : List LogFile} (h : LogRel crcOn s db fs)
    {c : Wal.Current} {bs : Bytes} (hc : s.current = some c) (hm : (c.id, bs) ∈ s.dir.files) :
    ∃ fs0 f, fs = fs0 ++ [f] ∧ bs = dat crcOn f := by
  obtain ⟨fs0, f, z, rfl, hcur, _⟩ := h.cur
  obtain ⟨g1, g2, g3⟩ := (holds_iff _ _).1 h.holds
  refine ⟨fs0, f, rfl, ?_⟩
  rw [hcur] at hc
  have hc := Option.some.inj hc
  subst hc
  rw [g3] at hm
  obtain ⟨g, hg, e⟩ := List.mem_map.1 hm
  have hids := C23.ids_lt h.wf.1
  rw [List.pairwise_append] at hids
  simp only [Prod.mk.injEq] at e
  rcases List.mem_append.1 hg with hg | hg
  · have := hids.2.2 g hg f (by simp)
    omega
  · simp only [List.mem_singleton] at hg
    subst hg
    exact e.2.symm

theorem clean_torn {crcOn : Bool} {w : Db} {db : Dur.Db} {fs : List LogFile} (h : LogRel crcOn w.wal db fs)
    (hc : C84.Clean crcOn w) : ∀ f, fs.getLast? = some f → f.torn = [] := by
  intro f hf
  obtain ⟨c, bs, es, c1, c2, c3, c4⟩ := hc
  obtain ⟨fs0, f', rfl, hb⟩ := cur_bytes h c1 c2
  simp only [List.getLast?_append, List.getLast?_singleton, Option.some_or, Option.some.injEq] at hf
  subst hf
  obtain ⟨g1, _⟩ := (holds_iff _ _).1 h.holds
  obtain ⟨x, hx⟩ := g1 f' (by simp)
  rw [hb, dat_eq hx] at c4
  have := h.wf.2 f' (by simp)
  exact whole_torn _ _ _ _ this.1 c3 hx this.2 c4

theorem begun_some {crcOn : Bool} {w : Db} {db : Dur.Db} {fs : List LogFile} (h : LogRel crcOn w.wal db fs)
    (hc : C84.Begun crcOn w) : ∀ f, fs.getLast? = some f → f.entries ≠ [] := by
  intro f hf he
  obtain ⟨c, e, b, bs, c1, c2, c3, c4⟩ := hc
  obtain ⟨fs0, f', rfl, hb⟩ := cur_bytes h c1 c2
  simp only [List.getLast?_append, List.getLast?_singleton, Option.some_or, Option.some.injEq] at hf
  subst hf
  have := h.wf.2 f' (by simp)
  rw [dat_eq (f := f') (bs := []) (by rw [he]; rfl)] at hb
  exact torn_begin this.2 (bytes_rec c3 c4) (by simpa using hb.symm)

/-- The directory after a crash in wal_write. -/
theorem tear_rel {crcOn : Bool} {s : Wal.State} {db : Dur.Db} {fs : List LogFile} (h : LogRel crcOn s db fs)
    (ht : ∀ f, fs.getLast? = some f → f.torn = []) {es : List Wal.LogEvent} {n : Nat}
    (h1 : Wal.Calm crcOn es) (h2 : Wal.Fits es) (hlt : db.lsn + 1 < 18446744073709551615)
    (hn : ∀ b, Wal.batch crcOn (s.lsn + 1) es = .ok b → n < b.length) :
    ∃ fs0 f b t d, fs = fs0 ++ [f] ∧ t.length ≤ n ∧ s.tear (fun l => Wal.batch crcOn l es) n = .ok d ∧
      Wal.batch crcOn (s.lsn + 1) es = .ok b ∧ t = b.take n ∧
      (dat crcOn { f with torn := t }).length = (dat crcOn f).length + t.length ∧
      LogWF crcOn (fs0 ++ [{ f with torn := t }]) ∧ Holds crcOn (fs0 ++ [{ f with torn := t }]) d ∧
      ∀ g ∈ d.files, ∃ g' ∈ s.dir.files, g.2.length ≤ g'.2.length + n := by
  obtain ⟨fs0, f, z, rfl, hcur, hz, hid⟩ := h.cur
  have htorn := ht f (by simp)
  have hgood : (Entry.write (s.lsn + 1) es).Good crcOn := ⟨by rw [h.lsn]; omega, h1, h2⟩
  obtain ⟨b, hb, _⟩ := C22.entry_rec hgood
  have hnb := hn b hb
  have hwf := h.wf
  obtain ⟨g1, g2, g3⟩ := (holds_iff _ _).1 h.holds
  obtain ⟨bs, hc⟩ := g1 f (by simp)
  have hfiles : (C23.putAt s ⟨f.id, (dat crcOn f).length, z⟩ (b.take n)).files =
      (fs0.map fun f => (f.id, dat crcOn f)) ++ [(f.id, dat crcOn f ++ b.take n)] := by
    simp only [C23.putAt]
    rw [g3, C23.map_last (C23.ids_lt hwf.1) rfl]
  refine ⟨fs0, f, b, b.take n, _, rfl, by simp; omega, C23.tear_eq hb hcur n, hb, rfl, ?_, ⟨⟨?_, ?_⟩, ?_⟩, ?_, ?_⟩
  · rw [dat_eq hc, dat_eq (f := { f with torn := b.take n }) hc, htorn]
    simp
  · have := hwf.1.1
    rw [List.pairwise_append] at this ⊢
    exact ⟨this.1, by simp, fun a ha g hg => by
      simp only [List.mem_cons, List.not_mem_nil, or_false] at hg
      subst hg
      exact this.2.2 a ha f (by simp)⟩
  · intro g hg
    rcases List.mem_append.1 hg with hg | hg
    · exact hwf.1.2 g (by simp [hg])
    · simp only [List.mem_cons, List.not_mem_nil, or_false] at hg
      subst hg
      exact hwf.1.2 f (by simp)
  · intro g hg
    rcases List.mem_append.1 hg with hg | hg
    · exact hwf.2 g (by simp [hg])
    · simp only [List.mem_cons, List.not_mem_nil, or_false] at hg
      subst hg
      exact ⟨(hwf.2 f (by simp)).1, .inr ⟨_, b, n, hgood, hb, hnb, rfl⟩⟩
  · rw [holds_iff]
    refine ⟨?_, ?_, ?_⟩
    · intro g hg
      rcases List.mem_append.1 hg with hg | hg
      · exact g1 g (by simp [hg])
      · simp only [List.mem_cons, List.not_mem_nil, or_false] at hg
        subst hg
        exact ⟨bs, hc⟩
    · simp only [C23.putAt]; rw [g2]; simp
    · rw [hfiles, List.map_append]
      congr 1
      simp only [List.map_cons, List.map_nil]
      rw [dat_eq hc, dat_eq (f := { f with torn := b.take n }) hc, htorn]
      simp
  · intro g hg
    rw [hfiles] at hg
    rw [g3]
    rcases List.mem_append.1 hg with hg | hg
    · exact ⟨g, by rw [List.map_append]; exact List.mem_append_left _ hg, by omega⟩
    · simp only [List.mem_singleton] at hg
      subst hg
      refine ⟨(f.id, dat crcOn f), by simp, ?_⟩
      simp only [List.length_append, List.length_take]
      omega

/-- The log after a wal_write that failed. -/
theorem fail_rel {crcOn : Bool} {s : Wal.State} {db : Dur.Db} {fs : List LogFile} (h : LogRel crcOn s db fs)
    (ht : ∀ f, fs.getLast? = some f → f.torn = []) {es : List Wal.LogEvent} {n : Nat}
    (h1 : Wal.Calm crcOn es) (h2 : Wal.Fits es) (hlt : db.lsn + 1 < 18446744073709551615)
    (hn : ∀ b, Wal.batch crcOn (s.lsn + 1) es = .ok b → n < b.length) :
    ∃ s' fs', s.fail (fun l => Wal.batch crcOn l es) n = .ok s' ∧ LogRel crcOn s' db fs' := by
  obtain ⟨fs0, f, b, t, d, rfl, t1, t2, t3, t4, t5, t6, t7, t8⟩ := tear_rel h ht h1 h2 hlt hn
  obtain ⟨_, f', z, q1, hcur, hz, hid⟩ := h.cur
  have q1 := (List.append_inj' q1 rfl).2
  simp only [List.cons.injEq, and_true] at q1
  subst q1
  have hnb := hn b t3
  obtain ⟨s', r1, r2⟩ := C60.fail_tear (r := fun l => Wal.batch crcOn l es) t3 hcur n
  rw [t2] at r2
  have r2 := Res.ok.inj r2
  rw [C60.fail_eq (r := fun l => Wal.batch crcOn l es) t3 hcur n] at r1
  refine ⟨s', fs0 ++ [{ f with torn := t }], ?_, ?_⟩
  · rw [C60.fail_eq (r := fun l => Wal.batch crcOn l es) t3 hcur n]
    exact r1
  · have r1 := Res.ok.inj r1
    rw [if_neg (by omega)] at r1
    refine ⟨t6, by rw [← r2]; exact t7, by rw [C23.entries_torn]; exact h.batches, by rw [h.wal]; simp, ?_, ?_⟩
    · refine ⟨fs0, _, z, rfl, ?_, by rw [t5]; omega, hid⟩
      rw [← r1, t5, t4]
    · rw [← r1]
      exact h.lsn

end Verif.Whole
