import Verif.Proofs.WalRun

/-! C23: a torn log tail loses only the torn record, now and later. -/
namespace Verif.C23
open Wal C22
open Io hiding Holds

/-- The first half holds: whatever the byte position at which the last record
was cut, the restart finds exactly the records acknowledged before, and leaves
the files alone, so that further restarts find them as well. -/
theorem C23_recovered (crcOn : Bool) (base fuel : Nat) (fs : List LogFile) (s : State) (k : Kind) (b : Bytes) (n : Nat)
    (h : Running crcOn fs s) (hr : InRange fs s [] fuel) (hk : k.Good crcOn)
    (hb : (k.entry (s.lsn + 1)).bytes crcOn = .ok b) (hn : n < b.length) :
    ∃ d, s.tear (fun l => (k.entry l).bytes crcOn) n = .ok d ∧
      (Small d → ∃ s1, restart crcOn d.files base fuel = .ok ((entriesOf fs).map (·.record), s1) ∧
        s1.dir.files = d.files) := by
  obtain ⟨fs0, f, d, rfl, h1, h2, h3⟩ := tear_spec h hk (by have := hr.1; simp at this; omega) hb hn
  refine ⟨d, h1, fun hs => ?_⟩
  have h4 := restart_spec (f := { f with torn := b.take n }) h2 h3 hs (by simp) base fuel (by rw [entries_torn]; have := hr.2; simpa using this)
  rw [entries_torn] at h4
  exact ⟨_, h4, rfl⟩

/-- Both halves hold if nothing of the record had reached the file.  Missing to
the full property: a cut inside the record (see `C23_later_false`); drop records
(after a restart that finds only drops, numbers start again, see C21). -/
theorem C23_later_partial (crcOn : Bool) (base fuel : Nat) (fs : List LogFile) (s : State) (k : Kind) (b : Bytes)
    (ops : List Op) (h : Running crcOn fs s) (hr : InRange fs s ops fuel) (hbase : base ≤ s.lsn) (hk : k.Good crcOn)
    (hb : (k.entry (s.lsn + 1)).bytes crcOn = .ok b) (hg : ∀ op ∈ ops, opGood crcOn op)
    (hba : Batches (entriesOf fs)) (hops : ∀ op ∈ ops, opBatch op)
    (hs1 : ∀ d, s.tear (fun l => (k.entry l).bytes crcOn) 0 = .ok d → Small d)
    (hs2 : ∀ d s1 rs, s.tear (fun l => (k.entry l).bytes crcOn) 0 = .ok d →
      restart crcOn d.files base fuel = .ok (rs, s1) → StaysSmall crcOn base fuel s1 ops) :
    story crcOn base fuel s k 0 ops =
      .ok ((entriesOf fs).map (·.record), (entriesOf fs ++ logged s.lsn ops).map (·.record)) := by
  obtain ⟨hr1, hr2⟩ := hr
  have hpos : 0 < b.length := by
    obtain ⟨b', hb', hrec⟩ := entry_rec (kind_good (l := s.lsn + 1) hk (by omega))
    rw [hb] at hb'
    have := Res.ok.inj hb'
    subst this
    have := rec_ge hrec
    omega
  have hlsn := h.2.2.1
  obtain ⟨-, -, -, f0, bs, hlast, htorn, hc, hcur, hid⟩ := id h
  obtain ⟨fs0, f, d, rfl, h1, h2, h3⟩ := tear_spec h hk (by omega) hb hpos
  simp only [List.getLast?_append, List.getLast?_singleton, Option.some_or, Option.some.injEq] at hlast
  subst hlast
  have hf : ({ f with torn := b.take 0 } : LogFile) = f := by
    obtain ⟨a, b, c⟩ := f
    simp only at htorn
    simp [htorn]
  rw [hf] at h2 h3
  have hsd := hs1 d h1
  have h4 := restart_spec (f := f) (fuel := fuel) h2 h3 hsd (by simp) base (by omega)
  have hfl := follow_last hba (hlsn ▸ hbase)
  have hst := hs2 d _ _ h1 h4
  rw [hfl, ← hlsn] at h4 hst
  have hlen : (dat crcOn f).length = bs.length := by rw [dat_eq hc, htorn]; simp
  have hrun : Running crcOn (fs0 ++ [f]) ⟨d, some ⟨f.id, (dat crcOn f).length, (dat crcOn f).length⟩, s.lsn⟩ :=
    ⟨h2, h3, hlsn, f, bs, by simp, htorn, hc, by rw [hlen], hid⟩
  obtain ⟨fs', s', e1, e2, e3, e4, e5⟩ := run_spec ops _ _ hrun ⟨hr1, hr2⟩ hbase hg hops hba hst
  have hll : (logged s.lsn ops).length ≤ ops.length := by
    have : ∀ (ops : List Op) (l : Nat), (logged l ops).length ≤ ops.length := by
      intro ops
      induction ops with
      | nil => intro l; simp [logged]
      | cons op ops ih =>
        intro l
        cases op with
        | log k => have := ih (l + 1); simp [logged]; omega
        | rotate wm => have := ih l; simp [logged]; omega
        | reopen => have := ih l; simp [logged]; omega
    exact this ops _
  obtain ⟨s2, h5, -, -⟩ := step_reopen (base := base) (fuel := fuel) e2 (hst ops [] s' (by simp) e1) e5
    (by rw [e3]; simp; omega) e4
  unfold story
  rw [h1]
  simp only [Res.bind_ok]
  rw [h4]
  simp only [Res.bind_ok]
  rw [e1]
  simp only [Res.bind_ok]
  rw [h5, e3]
  rfl

/-- Both halves also hold for every cut when the log is rotated before the
first write after the restart, if the last file had a complete record.  (The
code never does so by itself: wal_open continues the last file, and wal_rotate
is only asked for above wal_rotate_wm.) -/
theorem C23_rotated (crcOn : Bool) (base fuel : Nat) (fs : List LogFile) (s : State) (k : Kind) (b : Bytes) (n : Nat)
    (ops : List Op) (h : Running crcOn fs s) (hr : InRange fs s ops fuel) (hbase : base ≤ s.lsn) (hk : k.Good crcOn)
    (hb : (k.entry (s.lsn + 1)).bytes crcOn = .ok b) (hn : n < b.length) (hg : ∀ op ∈ ops, opGood crcOn op)
    (hba : Batches (entriesOf fs)) (hops : ∀ op ∈ ops, opBatch op) (hne : ∀ f ∈ fs.getLast?, f.entries ≠ [])
    (hs1 : ∀ d, s.tear (fun l => (k.entry l).bytes crcOn) n = .ok d → Small d)
    (hs2 : ∀ d s1 rs, s.tear (fun l => (k.entry l).bytes crcOn) n = .ok d →
      restart crcOn d.files base fuel = .ok (rs, s1) → StaysSmall crcOn base fuel (s1.rotate 0) ops) :
    story crcOn base fuel s k n (.rotate 0 :: ops) =
      .ok ((entriesOf fs).map (·.record), (entriesOf fs ++ logged s.lsn ops).map (·.record)) := by
  obtain ⟨hr1, hr2⟩ := hr
  have hlsn := h.2.2.1
  obtain ⟨-, -, -, f0, bs, hlast, htorn, hc, hcur, hid⟩ := id h
  obtain ⟨fs0, f, d, rfl, h1, h2, h3⟩ := tear_spec h hk (by omega) hb hn
  simp only [List.getLast?_append, List.getLast?_singleton, Option.some_or, Option.some.injEq] at hlast
  subst hlast
  have hne' : f.entries ≠ [] := hne f (by simp)
  have hsd := hs1 d h1
  have h4 := restart_spec (f := { f with torn := b.take n }) (fuel := fuel) h2 h3 hsd (by simp) base (by rw [entries_torn]; omega)
  have hfl := follow_last hba (hlsn ▸ hbase)
  have hst := hs2 d _ _ h1 h4
  rw [entries_torn, hfl, ← hlsn] at h4 hst
  have hsize : 0 < (dat crcOn { f with torn := b.take n }).length := by
    rw [dat_eq (f := { f with torn := b.take n }) hc, List.length_append]
    obtain ⟨e, es, he⟩ := List.exists_cons_of_ne_nil hne'
    have hge := (h.1.2 f (by simp)).1 e (by rw [he]; simp)
    obtain ⟨b', hb', hrec⟩ := entry_rec hge
    have := rec_ge hrec
    rw [he] at hc
    simp only [content, hb', Res.bind_ok] at hc
    obtain ⟨b2, -, hc⟩ := Res.bind_eq_ok.1 hc
    have := Res.ok.inj hc
    subst this
    simp
    omega
  obtain ⟨hrun, hl2⟩ := rotate_new (s := ⟨d, some ⟨f.id, (dat crcOn { f with torn := b.take n }).length,
      (dat crcOn { f with torn := b.take n }).length⟩, s.lsn⟩) (wm := 0) h2 h3 (by rw [last_torn]; exact hlsn)
    (by dsimp only; omega) (f := { f with torn := b.take n }) (by simp) hne' rfl hsize
  have hent : entriesOf (fs0 ++ [{ f with torn := b.take n }] ++ [⟨s.lsn + 1, [], []⟩]) = entriesOf (fs0 ++ [f]) := by
    simp [entriesOf]
  obtain ⟨fs', s', e1, e2, e3, e4, e5⟩ := run_spec ops _ _ hrun ⟨by rw [hl2]; exact hr1, by rw [hent]; exact hr2⟩
    (by rw [hl2]; exact hbase) hg hops (by rw [hent]; exact hba) hst
  rw [hent, hl2] at e3
  have hll : (logged s.lsn ops).length ≤ ops.length := by
    have : ∀ (ops : List Op) (l : Nat), (logged l ops).length ≤ ops.length := by
      intro ops
      induction ops with
      | nil => intro l; simp [logged]
      | cons op ops ih =>
        intro l
        cases op with
        | log k => have := ih (l + 1); simp [logged]; omega
        | rotate wm => have := ih l; simp [logged]; omega
        | reopen => have := ih l; simp [logged]; omega
    exact this ops _
  obtain ⟨s2, h5, -, -⟩ := step_reopen (base := base) (fuel := fuel) e2 (hst ops [] s' (by simp) e1) e5
    (by rw [e3]; simp; omega) e4
  unfold story
  rw [h1]
  simp only [Res.bind_ok]
  rw [h4]
  simp only [Res.bind_ok, run]
  rw [e1]
  simp only [Res.bind_ok]
  rw [h5, e3]
  rfl

/-! A concrete database: freshly created, with one batch logged. -/

def batch1 : Kind := .batch [⟨⟨3, 0, [], [7, 7]⟩, [], []⟩]

def files1 : List LogFile := [⟨1, [batch1.entry 1], []⟩]

def bytes1 : Bytes :=
  [0, 0, 0, 0, 1, 0, 0, 0, 0, 0, 0, 0, 0, 1, 0, 0, 0, 37, 0, 0, 0, 3, 0, 0, 0, 0, 0, 0, 0, 0, 0, 2, 0, 0, 0, 7, 7]

def bytes2 : Bytes :=
  [0, 0, 0, 0, 2, 0, 0, 0, 0, 0, 0, 0, 0, 1, 0, 0, 0, 37, 0, 0, 0, 3, 0, 0, 0, 0, 0, 0, 0, 0, 0, 2, 0, 0, 0, 7, 7]

def state1 : State := ⟨⟨[1], [(1, bytes1)]⟩, some ⟨1, 37, 37⟩, 1⟩

theorem batch1_good (crcOn : Bool) : batch1.Good crcOn := by
  simp [batch1, Kind.Good, Calm, Fits, WF, recSize, bufLimit, event_size]

theorem running1 : Running false files1 state1 := by
  refine ⟨⟨by unfold Ordered files1; decide, ?_⟩, ?_, by decide, ⟨1, [batch1.entry 1], []⟩, bytes1, rfl, rfl,
    by decide +kernel, by decide, by decide⟩
  · intro f hf
    simp only [files1, List.mem_cons, List.not_mem_nil, or_false] at hf
    subst hf
    refine ⟨?_, .inl rfl⟩
    intro e he
    simp only [List.mem_cons, List.not_mem_nil, or_false] at he
    subst he
    exact ⟨by decide, batch1_good false⟩
  · exact ⟨⟨[], []⟩, bytes1, ⟨rfl, rfl⟩, by decide +kernel, rfl, by simp [state1]⟩

/-- The state is the one the code reaches: an empty directory, one batch. -/
example : (openLog [] 0).bind (fun s => s.write fun l => (batch1.entry l).bytes false) = .ok state1 := by decide +kernel

/-- Non-vacuity of all three theorems. -/
example : Running false files1 state1 ∧ InRange files1 state1 [.log batch1, .reopen] 10 ∧ batch1.Good false ∧
    (batch1.entry (state1.lsn + 1)).bytes false = .ok bytes2 ∧ 22 < bytes2.length ∧
    (∀ op ∈ [Op.log batch1, .reopen], opGood false op) ∧ Batches (entriesOf files1) ∧
    (∀ op ∈ [Op.log batch1, .reopen], opBatch op) ∧ (∀ f ∈ files1.getLast?, f.entries ≠ []) := by
  refine ⟨running1, by unfold InRange; decide, batch1_good false, by decide +kernel, by decide, ?_, ?_, by decide, by decide⟩
  · intro op ho
    simp only [List.mem_cons, List.not_mem_nil, or_false] at ho
    rcases ho with rfl | rfl
    · exact batch1_good false
    · trivial
  · intro e he
    simp only [files1, entriesOf, List.flatMap_cons, List.flatMap_nil, List.append_nil, List.mem_cons, List.not_mem_nil, or_false] at he
    exact ⟨_, _, he⟩

/-- The hypotheses on file sizes can be met as well. -/
example : story false 0 10 state1 batch1 22 (.rotate 0 :: [.log batch1]) =
    .ok ((entriesOf files1).map (·.record), (entriesOf files1 ++ logged 1 [.log batch1]).map (·.record)) := by
  let d1 : Dir := ⟨[1], [(1, bytes1 ++ bytes2.take 22)]⟩
  let s1 : State := ⟨d1, some ⟨1, 59, 59⟩, 1⟩
  have ht : state1.tear (fun l => (batch1.entry l).bytes false) 22 = .ok d1 := by decide +kernel
  have hr : restart false d1.files 0 10 = .ok ((entriesOf files1).map (·.record), s1) := by decide +kernel
  refine C23_rotated false 0 10 files1 state1 batch1 bytes2 22 [.log batch1] running1 (by unfold InRange; decide) (by decide)
    (batch1_good false) (by decide +kernel) (by decide) ?_ ?_ (by decide) (by decide) ?_ ?_
  · intro op ho
    simp only [List.mem_cons, List.not_mem_nil, or_false] at ho
    subst ho
    exact batch1_good false
  · intro e he
    simp only [files1, entriesOf, List.flatMap_cons, List.flatMap_nil, List.append_nil, List.mem_cons, List.not_mem_nil, or_false] at he
    exact ⟨_, _, he⟩
  · intro d hd
    rw [ht] at hd
    have := Res.ok.inj hd
    subst this
    unfold Small
    decide
  · intro d s2 rs hd hr2
    rw [ht] at hd
    have := Res.ok.inj hd
    subst this
    rw [hr] at hr2
    have := Res.ok.inj hr2
    simp only [Prod.mk.injEq] at this
    obtain ⟨-, rfl⟩ := this
    intro o1 o2 t ho hrun
    match o1, ho with
    | [], _ =>
      have := Res.ok.inj hrun
      subst this
      unfold Small
      decide +kernel
    | [a], ho =>
      simp only [List.cons_append, List.nil_append, List.cons.injEq] at ho
      obtain ⟨rfl, -⟩ := ho
      have h2 : run false 0 10 (s1.rotate 0) [.log batch1] =
          .ok ⟨⟨[1, 2], [(1, bytes1 ++ bytes2.take 22), (2, bytes2)]⟩, some ⟨2, 37, 37⟩, 2⟩ := by decide +kernel
      rw [h2] at hrun
      have := Res.ok.inj hrun
      subst this
      unfold Small
      decide
    | a :: b :: l, ho => simp at ho

/-- Records logged after the restart are lost: the torn bytes stay in the file,
the next record is written after them, and the next restart takes the torn
bytes and the beginning of that record for one record.  With checksums the
database cannot be opened any more. -/
theorem C23_cannot_reopen :
    (openLog [] 0).bind (fun s => story true 0 10 s batch1 22 [.log batch1]) = .err "wal: crc mismatch" := by
  decide +kernel

/-- Without checksums it reads outside the record. -/
theorem C23_reads_outside :
    (openLog [] 0).bind (fun s => story false 0 10 s batch1 10 [.log batch1]) = .ub "wal_file_pread: negative size" := by
  decide +kernel

/-- So the full property is false. -/
theorem C23_later_false : ¬ Full := by
  intro h
  have := h false 0 10 files1 state1 batch1 bytes2 10 [.log batch1] running1 (by unfold InRange; decide) (by decide)
    (batch1_good false) (by decide +kernel) (by decide) (by
      intro op ho
      simp only [List.mem_cons, List.not_mem_nil, or_false] at ho
      subst ho
      exact batch1_good false)
  revert this
  decide +kernel

end Verif.C23
