import Verif.Spec.C23
import Verif.Proofs.WalRead

/-! Helper lemmas: writing to the log, rotation, restarts. -/
namespace Verif.C23
open Wal C22
open Io hiding Holds

/-- The bytes of a file. -/
def dat (crcOn : Bool) (f : LogFile) : Bytes :=
  match content crcOn f.entries with
  | .ok bs => bs ++ f.torn
  | _ => []

theorem dat_eq {crcOn : Bool} {f : LogFile} {bs : Bytes} (h : content crcOn f.entries = .ok bs) :
    dat crcOn f = bs ++ f.torn := by
  unfold dat; rw [h]

theorem holds_iff {crcOn : Bool} : ∀ (fs : List LogFile) (d : Dir), Holds crcOn fs d ↔
    (∀ f ∈ fs, ∃ bs, content crcOn f.entries = .ok bs) ∧ d.list = fs.map (·.id) ∧
    d.files = fs.map fun f => (f.id, dat crcOn f) := by
  intro fs
  induction fs with
  | nil => intro d; simp [Holds]
  | cons f fs ih =>
    intro d
    simp only [Holds, List.mem_cons, forall_eq_or_imp, List.map_cons]
    constructor
    · rintro ⟨d', bs, h1, h2, h3, h4⟩
      obtain ⟨h5, h6, h7⟩ := (ih d').1 h1
      exact ⟨⟨⟨bs, h2⟩, h5⟩, by rw [h3, h6], by rw [h4, h7, dat_eq h2]⟩
    · rintro ⟨⟨⟨bs, h2⟩, h5⟩, h3, h4⟩
      exact ⟨⟨fs.map (·.id), fs.map fun f => (f.id, dat crcOn f)⟩, bs, (ih _).2 ⟨h5, rfl, rfl⟩, h2, h3,
        by rw [h4, dat_eq h2]⟩

theorem content_append {crcOn : Bool} {e : Entry} {b : Bytes} (h : e.bytes crcOn = .ok b) :
    ∀ (es : List Entry) (bs : Bytes), content crcOn es = .ok bs → content crcOn (es ++ [e]) = .ok (bs ++ b) := by
  intro es
  induction es with
  | nil =>
    intro bs hc
    have := Res.ok.inj hc
    subst this
    simp [content, h]
  | cons x es ih =>
    intro bs hc
    simp only [content] at hc
    obtain ⟨b1, h1, hc⟩ := Res.bind_eq_ok.1 hc
    obtain ⟨b2, h2, hc⟩ := Res.bind_eq_ok.1 hc
    have := Res.ok.inj hc
    subst this
    simp only [List.cons_append, content, h1, ih b2 h2, Res.bind_ok, List.append_assoc]

theorem getLast_split {α : Type} {l : List α} {f : α} (h : l.getLast? = some f) : ∃ l0, l = l0 ++ [f] := by
  obtain ⟨ys, h⟩ := List.getLast?_eq_some_iff.1 h
  exact ⟨ys, h⟩

/-- Only the last file is touched. -/
theorem map_last {crcOn : Bool} {fs0 : List LogFile} {f : LogFile} {p : Nat} {bs : Bytes}
    (h : (fs0 ++ [f]).Pairwise (fun f g => f.id < g.id)) (hp : p = (dat crcOn f).length) :
    (((fs0 ++ [f]).map fun f => (f.id, dat crcOn f)).map fun g => if g.1 = f.id then (g.1, put g.2 p bs) else g) =
      (fs0.map fun f => (f.id, dat crcOn f)) ++ [(f.id, dat crcOn f ++ bs)] := by
  rw [List.pairwise_append] at h
  rw [List.map_append, List.map_append]
  congr 1
  · rw [List.map_map]
    apply List.map_congr_left
    intro g hg
    have := h.2.2 g hg f (by simp)
    simp only [Function.comp]
    rw [if_neg (by omega)]
  · simp [put, hp]

theorem ids_lt {fs : List LogFile} (h : Ordered fs) : fs.Pairwise (fun f g => f.id < g.id) :=
  h.1.imp fun h => h.1

theorem lsn_le_foldl : ∀ (l : List Entry) (m : Nat), m ≤ l.foldl (fun m e => max m e.lsn) m ∧
    ∀ e ∈ l, e.lsn ≤ l.foldl (fun m e => max m e.lsn) m := by
  intro l
  induction l with
  | nil => intro m; simp
  | cons x l ih =>
    intro m
    simp only [List.foldl_cons, List.mem_cons, forall_eq_or_imp]
    obtain ⟨h1, h2⟩ := ih (max m x.lsn)
    exact ⟨by omega, by omega, h2⟩

theorem lsn_le_last {fs : List LogFile} : ∀ e ∈ entriesOf fs, e.lsn ≤ lastLsn fs := (lsn_le_foldl _ 0).2

theorem entriesOf_append (a b : List LogFile) : entriesOf (a ++ b) = entriesOf a ++ entriesOf b := by
  simp [entriesOf]

/-- The last file gets a further record. -/
theorem wf_log {crcOn : Bool} {fs0 : List LogFile} {f : LogFile} {e : Entry} (h : LogWF crcOn (fs0 ++ [f]))
    (hg : e.Good crcOn) (hl : e.lsn = lastLsn (fs0 ++ [f]) + 1) (hid : f.id ≤ e.lsn) :
    LogWF crcOn (fs0 ++ [{ f with entries := f.entries ++ [e] }]) := by
  obtain ⟨⟨h1, h2⟩, h3⟩ := h
  have hle := lsn_le_last (fs := fs0 ++ [f])
  rw [List.pairwise_append] at h1
  refine ⟨⟨?_, ?_⟩, ?_⟩
  · rw [List.pairwise_append]
    exact ⟨h1.1, by simp, fun a ha b hb => by
      simp only [List.mem_cons, List.not_mem_nil, or_false] at hb
      subst hb
      exact h1.2.2 a ha f (by simp)⟩
  · intro g hg'
    rcases List.mem_append.1 hg' with hg' | hg'
    · exact h2 g (by simp [hg'])
    · simp only [List.mem_cons, List.not_mem_nil, or_false] at hg'
      subst hg'
      obtain ⟨a1, a2, a3⟩ := h2 f (by simp)
      refine ⟨a1, ?_, ?_⟩
      · dsimp only
        rw [List.pairwise_append]
        refine ⟨a2, by simp, fun a ha b hb => ?_⟩
        simp only [List.mem_cons, List.not_mem_nil, or_false] at hb
        subst hb
        have := hle a (by rw [entriesOf_append]; simp [entriesOf, ha])
        omega
      · intro a ha
        rcases List.mem_append.1 ha with ha | ha
        · exact a3 a ha
        · simp only [List.mem_cons, List.not_mem_nil, or_false] at ha
          subst ha
          exact hid
  · intro g hg'
    rcases List.mem_append.1 hg' with hg' | hg'
    · exact h3 g (by simp [hg'])
    · simp only [List.mem_cons, List.not_mem_nil, or_false] at hg'
      subst hg'
      obtain ⟨a1, a2⟩ := h3 f (by simp)
      refine ⟨fun a ha => ?_, a2⟩
      rcases List.mem_append.1 ha with ha | ha
      · exact a1 a ha
      · simp only [List.mem_cons, List.not_mem_nil, or_false] at ha
        subst ha
        exact hg

theorem kind_entry_lsn (k : Kind) (l : Nat) : (k.entry l).lsn = l := by cases k <;> rfl

theorem kind_good {crcOn : Bool} {k : Kind} {l : Nat} (h : k.Good crcOn) (hl : l < 18446744073709551616) :
    (k.entry l).Good crcOn := by
  cases k with
  | batch es => exact ⟨hl, h⟩
  | drop id => exact ⟨hl, h⟩

/-- The files after writing `b` at the position of `c`. -/
def putAt (s : State) (c : Current) (b : Bytes) : Dir :=
  { s.dir with files := s.dir.files.map fun f => if f.1 = c.id then (f.1, put f.2 c.pos b) else f }

theorem write_eq {s : State} {r : Nat → Res Bytes} {b : Bytes} {c : Current} (h : r (s.lsn + 1) = .ok b)
    (hc : s.current = some c) : s.write r =
      .ok ⟨putAt s c b, some { c with pos := c.pos + b.length, size := c.size + b.length }, s.lsn + 1⟩ := by
  unfold State.write
  rw [h, hc]
  rfl

theorem tear_eq {s : State} {r : Nat → Res Bytes} {b : Bytes} {c : Current} (h : r (s.lsn + 1) = .ok b)
    (hc : s.current = some c) (n : Nat) : s.tear r n = .ok (putAt s c (b.take n)) := by
  unfold State.tear
  rw [h, hc]
  rfl

theorem step_log {crcOn : Bool} {fs : List LogFile} {s : State} {k : Kind} (h : Running crcOn fs s) (hk : k.Good crcOn)
    (hl : s.lsn + 2 < 18446744073709551615) :
    ∃ fs' s', s.write (fun l => (k.entry l).bytes crcOn) = .ok s' ∧ Running crcOn fs' s' ∧
      entriesOf fs' = entriesOf fs ++ [k.entry (s.lsn + 1)] ∧ s'.lsn = s.lsn + 1 := by
  obtain ⟨hwf, hh, hlsn, f, bs, hlast, htorn, hc, hcur, hid⟩ := h
  obtain ⟨fs0, rfl⟩ := getLast_split hlast
  have hgood : (k.entry (s.lsn + 1)).Good crcOn := kind_good hk (by omega)
  obtain ⟨b, hb, hr⟩ := entry_rec hgood
  have hwf' := wf_log hwf hgood (by rw [kind_entry_lsn, hlsn]) (by rw [kind_entry_lsn]; omega)
  have hent : entriesOf (fs0 ++ [{ f with entries := f.entries ++ [k.entry (s.lsn + 1)] }]) =
      entriesOf (fs0 ++ [f]) ++ [k.entry (s.lsn + 1)] := by
    simp [entriesOf]
  obtain ⟨h1, h2, h3⟩ := (holds_iff _ _).1 hh
  have hdat : (dat crcOn f).length = bs.length := by rw [dat_eq hc, htorn]; simp
  refine ⟨fs0 ++ [{ f with entries := f.entries ++ [k.entry (s.lsn + 1)] }], _, write_eq hb hcur, ⟨hwf', ?_, ?_, ?_⟩, hent, rfl⟩
  · rw [holds_iff]
    refine ⟨?_, ?_, ?_⟩
    · intro g hg
      rcases List.mem_append.1 hg with hg | hg
      · exact h1 g (by simp [hg])
      · simp only [List.mem_cons, List.not_mem_nil, or_false] at hg
        subst hg
        exact ⟨_, content_append hb _ _ hc⟩
    · simp only [putAt]
      rw [h2]; simp
    · simp only [putAt]
      rw [h3, map_last (ids_lt hwf.1) hdat.symm, List.map_append]
      congr 1
      simp only [List.map_cons, List.map_nil]
      rw [dat_eq hc, dat_eq (f := { f with entries := f.entries ++ [k.entry (s.lsn + 1)] }) (content_append hb _ _ hc), htorn]
      simp
  · dsimp only
    unfold lastLsn
    rw [hent, List.foldl_append]
    simp only [List.foldl_cons, List.foldl_nil, kind_entry_lsn]
    have : s.lsn = (entriesOf (fs0 ++ [f])).foldl (fun m e => max m e.lsn) 0 := hlsn
    omega
  · refine ⟨{ f with entries := f.entries ++ [k.entry (s.lsn + 1)] }, bs ++ b, by simp, htorn, content_append hb _ _ hc, ?_, ?_⟩
    · simp
    · dsimp only; omega

theorem idAdd_append (id : Nat) : ∀ (l : List Nat), (∀ x ∈ l, x < id) → idAdd id l = l ++ [id] := by
  intro l
  induction l with
  | nil => intro _; rfl
  | cons x l ih =>
    intro h
    have := h x (by simp)
    simp only [idAdd, List.cons_append]
    rw [if_pos this, ih fun y hy => h y (by simp [hy])]

/-- A new file after all others. -/
theorem wf_new {crcOn : Bool} {fs : List LogFile} (h : LogWF crcOn fs) {id : Nat} (h1 : ∀ f ∈ fs, f.id < id)
    (h2 : ∀ e ∈ entriesOf fs, e.lsn < id) (h3 : id < 18446744073709551615) : LogWF crcOn (fs ++ [⟨id, [], []⟩]) := by
  obtain ⟨⟨a1, a2⟩, a3⟩ := h
  refine ⟨⟨?_, ?_⟩, ?_⟩
  · rw [List.pairwise_append]
    refine ⟨a1, by simp, fun f hf g hg => ?_⟩
    simp only [List.mem_cons, List.not_mem_nil, or_false] at hg
    subst hg
    exact ⟨h1 f hf, fun e he => h2 e (List.mem_flatMap.2 ⟨f, hf, he⟩)⟩
  · intro f hf
    rcases List.mem_append.1 hf with hf | hf
    · exact a2 f hf
    · simp only [List.mem_cons, List.not_mem_nil, or_false] at hf
      subst hf
      exact ⟨h3, by simp, by simp⟩
  · intro f hf
    rcases List.mem_append.1 hf with hf | hf
    · exact a3 f hf
    · simp only [List.mem_cons, List.not_mem_nil, or_false] at hf
      subst hf
      exact ⟨by simp, .inl rfl⟩

/-- Rotation when the last file has a record: it may also end in torn bytes. -/
theorem rotate_new {crcOn : Bool} {fs : List LogFile} {s : State} (hwf : LogWF crcOn fs) (hh : Holds crcOn fs s.dir)
    (hlsn : s.lsn = lastLsn fs) (hlt : s.lsn + 2 < 18446744073709551615)
    {f : LogFile} (hlast : fs.getLast? = some f) (hne : f.entries ≠ []) {c : Current} (hc : s.current = some c) {wm : Nat}
    (hwm : wm < c.size) :
    Running crcOn (fs ++ [⟨s.lsn + 1, [], []⟩]) (s.rotate wm) ∧ (s.rotate wm).lsn = s.lsn := by
  obtain ⟨fs0, rfl⟩ := getLast_split hlast
  have hle := lsn_le_last (fs := fs0 ++ [f])
  have hids : ∀ g ∈ fs0 ++ [f], g.id < s.lsn + 1 := by
    obtain ⟨e, he⟩ := List.exists_mem_of_ne_nil _ hne
    have h1 := hle e (by rw [entriesOf_append]; simp [entriesOf, he])
    have h2 := (hwf.1.2 f (by simp)).2.2 e he
    intro g hg
    rcases List.mem_append.1 hg with hg | hg
    · have := ids_lt hwf.1
      rw [List.pairwise_append] at this
      have := this.2.2 g hg f (by simp)
      omega
    · simp only [List.mem_cons, List.not_mem_nil, or_false] at hg
      subst hg
      omega
  have hwf' := wf_new (id := s.lsn + 1) hwf hids (fun e he => by have := hle e he; omega) (by omega)
  obtain ⟨h1, h2, h3⟩ := (holds_iff _ _).1 hh
  have hrot : s.rotate wm =
      { s with
        dir := { list := s.dir.list ++ [s.lsn + 1], files := s.dir.files ++ [(s.lsn + 1, [])] }
        current := some ⟨s.lsn + 1, 0, 0⟩ } := by
    unfold State.rotate
    rw [if_neg (by simp only [hc, Option.any_some, decide_eq_true_eq]; omega)]
    rw [idAdd_append _ _ (by
      rw [h2]; intro x hx
      obtain ⟨g, hg, rfl⟩ := List.mem_map.1 hx
      exact hids g hg)]
    rw [if_neg (by
      intro h
      rw [List.any_eq_true] at h
      obtain ⟨g, hg, hg'⟩ := h
      rw [h3] at hg
      obtain ⟨g', hg1, rfl⟩ := List.mem_map.1 hg
      have := hids g' hg1
      simp at hg'
      omega)]
  rw [hrot]
  refine ⟨⟨hwf', ?_, ?_, ⟨s.lsn + 1, [], []⟩, [], ?_⟩, rfl⟩
  · rw [holds_iff]
    refine ⟨?_, ?_, ?_⟩
    · intro g hg
      rcases List.mem_append.1 hg with hg | hg
      · exact h1 g hg
      · simp only [List.mem_cons, List.not_mem_nil, or_false] at hg
        subst hg
        exact ⟨[], rfl⟩
    · dsimp only; rw [h2]; simp
    · dsimp only; rw [h3]; simp [dat, content]
  · dsimp only
    rw [hlsn]
    simp [lastLsn, entriesOf]
  · exact ⟨by simp, rfl, rfl, rfl, Nat.le_refl _⟩

theorem step_rotate {crcOn : Bool} {fs : List LogFile} {s : State} (h : Running crcOn fs s) (wm : Nat)
    (hl : s.lsn + 2 < 18446744073709551615) :
    ∃ fs', Running crcOn fs' (s.rotate wm) ∧ entriesOf fs' = entriesOf fs ∧ (s.rotate wm).lsn = s.lsn := by
  have h0 := h
  obtain ⟨hwf, hh, hlsn, f, bs, hlast, htorn, hc, hcur, hid⟩ := h
  by_cases hwm : bs.length ≤ wm
  · have : s.rotate wm = s := by
      unfold State.rotate
      rw [if_pos (by simp [hcur, hwm])]
    rw [this]
    exact ⟨fs, h0, rfl, rfl⟩
  · have hne : f.entries ≠ [] := by
      intro he
      rw [he] at hc
      have := Res.ok.inj hc
      subst this
      simp at hwm
    obtain ⟨h1, h2⟩ := rotate_new hwf hh hlsn hl hlast hne hcur (wm := wm) (by dsimp only; omega)
    exact ⟨_, h1, by simp [entriesOf], h2⟩

theorem listFiles_eq {crcOn : Bool} (fs : List LogFile) (h : fs.Pairwise (fun f g => f.id < g.id)) :
    listFiles (fs.map fun f => (f.id, dat crcOn f)) = fs.map (·.id) := by
  unfold listFiles
  have : ∀ (l : List LogFile) (acc : List Nat), l.Pairwise (fun f g => f.id < g.id) →
      (∀ x ∈ acc, ∀ f ∈ l, x < f.id) →
      (l.map fun f => (f.id, dat crcOn f)).foldl (fun l f => idAdd f.1 l) acc = acc ++ l.map (·.id) := by
    intro l
    induction l with
    | nil => intro acc _ _; simp
    | cons f l ih =>
      intro acc hp ha
      rw [List.pairwise_cons] at hp
      simp only [List.map_cons, List.foldl_cons]
      rw [idAdd_append _ _ fun x hx => ha x hx f (by simp), ih _ hp.2 ?_]
      · simp
      · intro x hx g hg
        rcases List.mem_append.1 hx with hx | hx
        · exact ha x hx g (by simp [hg])
        · simp only [List.mem_cons, List.not_mem_nil, or_false] at hx
          subst hx
          exact hp.1 g hg
  simpa using this fs [] h (by simp)

theorem open_log {crcOn : Bool} {fs : List LogFile} {d : Dir} {f : LogFile} (hwf : LogWF crcOn fs)
    (hh : Holds crcOn fs d) (hlast : fs.getLast? = some f) (lsn : Nat) :
    openLog d.files lsn = .ok ⟨d, some ⟨f.id, (dat crcOn f).length, (dat crcOn f).length⟩, lsn⟩ := by
  obtain ⟨h1, h2, h3⟩ := (holds_iff _ _).1 hh
  have hids := ids_lt hwf.1
  have hd : (⟨fs.map (·.id), fs.map fun f => (f.id, dat crcOn f)⟩ : Dir) = d := by rw [← h2, ← h3]
  unfold openLog
  rw [h3, listFiles_eq fs hids]
  dsimp only
  rw [hd]
  obtain ⟨fs0, rfl⟩ := getLast_split hlast
  have hmax : idMax ((fs0 ++ [f]).map (·.id)) = f.id := by simp [idMax]
  rw [hmax]
  have hop : d.open_ f.id = .ok (dat crcOn f) := by
    unfold Dir.open_
    rw [h3, List.map_append, List.find?_append]
    have : (fs0.map fun f => (f.id, dat crcOn f)).find? (fun x => x.1 == f.id) = none := by
      rw [List.find?_eq_none]
      intro x hx
      obtain ⟨g, hg, rfl⟩ := List.mem_map.1 hx
      rw [List.pairwise_append] at hids
      have := hids.2.2 g hg f (by simp)
      simp; omega
    rw [this]
    simp
  rw [hop, if_neg (by simp)]
  rfl

theorem restart_spec {crcOn : Bool} {fs : List LogFile} {d : Dir} {f : LogFile} (hwf : LogWF crcOn fs)
    (hh : Holds crcOn fs d) (hs : Small d) (hlast : fs.getLast? = some f) (base fuel : Nat)
    (hf : (entriesOf fs).length < fuel) :
    restart crcOn d.files base fuel = .ok ((entriesOf fs).map (·.record),
      ⟨d, some ⟨f.id, (dat crcOn f).length, (dat crcOn f).length⟩, followLsn base ((entriesOf fs).map (·.record))⟩) := by
  unfold restart
  rw [open_log hwf hh hlast]
  simp only [Res.bind_ok]
  rw [read_spec hwf hh hs (.inl rfl) fuel hf, List.filter_eq_self.2 (by simp)]
  rfl

theorem follow_spec : ∀ (l : List Entry) (m : Nat), Batches l →
    followLsn m (l.map (·.record)) = l.foldl (fun m e => max m e.lsn) m := by
  intro l
  induction l with
  | nil => intro m _; rfl
  | cons x l ih =>
    intro m h
    obtain ⟨n, es, rfl⟩ := h x (by simp)
    have e1 : followLsn m ((Entry.write n es :: l).map (·.record)) =
        followLsn (if n > m then n else m) (l.map (·.record)) := rfl
    have e2 : (Entry.write n es :: l).foldl (fun m e => max m e.lsn) m = l.foldl (fun m e => max m e.lsn) (max m n) := rfl
    rw [e1, e2, ih _ fun e he => h e (by simp [he])]
    congr 1
    split <;> omega

theorem foldl_max (l : List Entry) : ∀ (m : Nat), l.foldl (fun m e => max m e.lsn) m = max m (l.foldl (fun m e => max m e.lsn) 0) := by
  induction l with
  | nil => intro m; simp
  | cons x l ih =>
    intro m
    simp only [List.foldl_cons]
    rw [ih (max m x.lsn), ih (max 0 x.lsn)]
    omega

theorem follow_last {fs : List LogFile} (h : Batches (entriesOf fs)) {base : Nat} (hb : base ≤ lastLsn fs) :
    followLsn base ((entriesOf fs).map (·.record)) = lastLsn fs := by
  rw [follow_spec _ _ h, foldl_max]
  unfold lastLsn at hb ⊢
  omega

theorem step_reopen {crcOn : Bool} {fs : List LogFile} {s : State} {base fuel : Nat} (h : Running crcOn fs s)
    (hs : Small s.dir) (hb : base ≤ s.lsn) (hf : (entriesOf fs).length < fuel) (hba : Batches (entriesOf fs)) :
    ∃ s', restart crcOn s.dir.files base fuel = .ok ((entriesOf fs).map (·.record), s') ∧ Running crcOn fs s' ∧
      s'.lsn = s.lsn := by
  obtain ⟨hwf, hh, hlsn, f, bs, hlast, htorn, hc, hcur, hid⟩ := h
  have hfl := follow_last hba (hlsn ▸ hb)
  have hd : (dat crcOn f).length = bs.length := by rw [dat_eq hc, htorn]; simp
  refine ⟨_, restart_spec hwf hh hs hlast base fuel hf, ⟨hwf, hh, hfl, f, bs, hlast, htorn, hc, ?_, ?_⟩, ?_⟩
  · dsimp only; rw [hd]
  · dsimp only; rw [hfl, ← hlsn]; exact hid
  · dsimp only; rw [hfl, hlsn]

/-- Running operations keeps the log in order. -/
theorem run_spec {crcOn : Bool} {base fuel : Nat} : ∀ (ops : List Op) (fs : List LogFile) (s : State),
    Running crcOn fs s → InRange fs s ops fuel → base ≤ s.lsn → (∀ op ∈ ops, opGood crcOn op) →
    (∀ op ∈ ops, opBatch op) → Batches (entriesOf fs) →
    StaysSmall crcOn base fuel s ops →
    ∃ fs' s', run crcOn base fuel s ops = .ok s' ∧ Running crcOn fs' s' ∧
      entriesOf fs' = entriesOf fs ++ logged s.lsn ops ∧ Batches (entriesOf fs') ∧ base ≤ s'.lsn := by
  intro ops
  induction ops with
  | nil =>
    intro fs s h hr hb hg hop hba hsm
    exact ⟨fs, s, rfl, h, by simp [logged], hba, hb⟩
  | cons op ops ih =>
    intro fs s h hr hb hg hop hba hsm
    obtain ⟨hr1, hr2⟩ := hr
    simp only [List.length_cons] at hr1 hr2
    cases op with
    | log k =>
      have hk : k.Good crcOn := hg (.log k) (by simp)
      obtain ⟨fs1, s1, h1, h2, h3, h4⟩ := step_log h hk (by omega)
      have hba1 : Batches (entriesOf fs1) := by
        rw [h3]
        intro e he
        rcases List.mem_append.1 he with he | he
        · exact hba e he
        · simp only [List.mem_cons, List.not_mem_nil, or_false] at he
          have := hop (.log k) (by simp)
          cases k with
          | batch es => exact ⟨_, _, he⟩
          | drop id => simp [opBatch, Kind.isBatch] at this
      obtain ⟨fs', s', e1, e2, e3, e4, e5⟩ := ih fs1 s1 h2
        ⟨by omega, by rw [h3]; simp; omega⟩ (by omega) (fun op ho => hg op (by simp [ho])) (fun op ho => hop op (by simp [ho])) hba1
        (fun o1 o2 t ho ht => hsm (.log k :: o1) o2 t (by simp [ho]) (by simp only [run, h1, Res.bind_ok]; exact ht))
      refine ⟨fs', s', by simp only [run, h1, Res.bind_ok]; exact e1, e2, ?_, e4, e5⟩
      rw [e3, h3, h4]
      simp [logged]
    | rotate wm =>
      obtain ⟨fs1, h2, h3, h4⟩ := step_rotate h wm (by omega)
      obtain ⟨fs', s', e1, e2, e3, e4, e5⟩ := ih fs1 (s.rotate wm) h2
        ⟨by omega, by rw [h3]; omega⟩ (by omega) (fun op ho => hg op (by simp [ho])) (fun op ho => hop op (by simp [ho])) (by rw [h3]; exact hba)
        (fun o1 o2 t ho ht => hsm (.rotate wm :: o1) o2 t (by simp [ho]) (by simp only [run]; exact ht))
      exact ⟨fs', s', by simp only [run]; exact e1, e2, by rw [e3, h3, h4]; simp [logged], e4, e5⟩
    | reopen =>
      have hs0 : Small s.dir := hsm [] (.reopen :: ops) s (by simp) rfl
      obtain ⟨s1, h1, h2, h4⟩ := step_reopen (fuel := fuel) h hs0 hb (by omega) hba
      obtain ⟨fs', s', e1, e2, e3, e4, e5⟩ := ih fs s1 h2
        ⟨by omega, by omega⟩ (by omega) (fun op ho => hg op (by simp [ho])) (fun op ho => hop op (by simp [ho])) hba
        (fun o1 o2 t ho ht => hsm (.reopen :: o1) o2 t (by simp [ho]) (by simp only [run, h1, Res.bind_ok]; exact ht))
      exact ⟨fs', s', by simp only [run, h1, Res.bind_ok]; exact e1, e2, by rw [e3, h4]; simp [logged], e4, e5⟩

/-- The torn file. -/
theorem tear_spec {crcOn : Bool} {fs : List LogFile} {s : State} {k : Kind} {b : Bytes} {n : Nat}
    (h : Running crcOn fs s) (hk : k.Good crcOn) (hl : s.lsn + 2 < 18446744073709551615)
    (hb : (k.entry (s.lsn + 1)).bytes crcOn = .ok b) (hn : n < b.length) :
    ∃ fs0 f d, fs = fs0 ++ [f] ∧ s.tear (fun l => (k.entry l).bytes crcOn) n = .ok d ∧
      LogWF crcOn (fs0 ++ [{ f with torn := b.take n }]) ∧ Holds crcOn (fs0 ++ [{ f with torn := b.take n }]) d := by
  obtain ⟨hwf, hh, hlsn, f, bs, hlast, htorn, hc, hcur, hid⟩ := h
  obtain ⟨fs0, rfl⟩ := getLast_split hlast
  obtain ⟨h1, h2, h3⟩ := (holds_iff _ _).1 hh
  have hgood : (k.entry (s.lsn + 1)).Good crcOn := kind_good hk (by omega)
  have hdat : (dat crcOn f).length = bs.length := by rw [dat_eq hc, htorn]; simp
  refine ⟨fs0, f, _, rfl, tear_eq hb hcur n, ⟨⟨?_, ?_⟩, ?_⟩, ?_⟩
  · have := hwf.1.1
    rw [List.pairwise_append] at this ⊢
    exact ⟨this.1, by simp, fun a ha g hg => by
      simp only [List.mem_cons, List.not_mem_nil, or_false] at hg
      subst hg
      exact this.2.2 a ha f (by simp)⟩
  · intro g hg
    rcases List.mem_append.1 hg with hg | hg
    · exact hwf.1.2 g (by simp [hg])
    · simp only [List.mem_cons, List.not_mem_nil, or_false] at hg
      subst hg
      exact hwf.1.2 f (by simp)
  · intro g hg
    rcases List.mem_append.1 hg with hg | hg
    · exact hwf.2 g (by simp [hg])
    · simp only [List.mem_cons, List.not_mem_nil, or_false] at hg
      subst hg
      exact ⟨(hwf.2 f (by simp)).1, .inr ⟨_, b, n, hgood, hb, hn, rfl⟩⟩
  · rw [holds_iff]
    refine ⟨?_, ?_, ?_⟩
    · intro g hg
      rcases List.mem_append.1 hg with hg | hg
      · exact h1 g (by simp [hg])
      · simp only [List.mem_cons, List.not_mem_nil, or_false] at hg
        subst hg
        exact ⟨bs, hc⟩
    · simp only [putAt]; rw [h2]; simp
    · simp only [putAt]
      rw [h3, map_last (ids_lt hwf.1) hdat.symm, List.map_append]
      congr 1
      simp only [List.map_cons, List.map_nil]
      rw [dat_eq hc, dat_eq (f := { f with torn := b.take n }) hc, htorn]
      simp

theorem entries_torn (fs0 : List LogFile) (f : LogFile) (t : Bytes) :
    entriesOf (fs0 ++ [{ f with torn := t }]) = entriesOf (fs0 ++ [f]) := by
  simp [entriesOf]

theorem last_torn (fs0 : List LogFile) (f : LogFile) (t : Bytes) :
    lastLsn (fs0 ++ [{ f with torn := t }]) = lastLsn (fs0 ++ [f]) := by
  unfold lastLsn; rw [entries_torn]

end Verif.C23
