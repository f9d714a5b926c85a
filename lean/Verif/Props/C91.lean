import Verif.Proofs.C91World
import Verif.Props.C12

/-! C91: a scan reads each region once, in order, one at a time. -/
namespace Verif.C91
open Spec Io Reads
open Cursor (CPart Content Holds FileOf)

/-- The cursor with notes is the cursor of C11 and C12: it opens and moves in the
same way. -/
theorem C91_same (cs : Codecs) (mc : MemCmp) (db : Mapping CPart) :
    (∀ key, Cursor.open_ cs mc db key = (open_ cs mc db key).map bare) ∧
    ∀ c, Cursor.next cs mc db (bare c) = (next cs mc db c).map bare :=
  ⟨open_same cs mc db, next_same cs mc db⟩

/-- The key is within the limits of C03 and C17: below 2^63, less than 2^31 from
the partitions around it and from the events of the file it starts in. -/
def TameKey (S : List (Slice CPart)) (ct : Slice CPart → Content) (key : Option Event) : Prop :=
  ∀ k, key = some k → k.id < 9223372036854775808 ∧ Near S k.id ∧
    ∀ s, IsGte S k.id (some s) → ∃ base, Within base k ∧ ∀ e ∈ (ct s).stored, Within base e

/-- Partial: for every history of partitions within the limits of C11 and every
content, a cursor reads the regions in order and none twice, one at most with
each move and none ahead of the event it is at; none before the key; and all
when it came to the end without a key.  Opening a cursor reads at most one region
without a key and at most two with one.  Missing: see C91_false and C91_two. -/
theorem C91_partial (sp ss : Nat) (cs : Codecs) (mc : MemCmp) (ops : List (C03.Op CPart)) (db : Mapping CPart)
    (ct : Slice CPart → Content) (key : Option Event) (hleg : C03.Legal C11.Close [] ops)
    (hrun : C03.run Mapping.init ops = .ok db) (hgap : C11.NoBigGap (C03.refRun [] ops))
    (hold : Holds cs mc sp ss (C03.refRun [] ops) ct) (hkey : TameKey (C03.refRun [] ops) ct key) :
    (∀ c, open_ cs mc db key = .ok c → AtMost 2 [] (reads c) ∧ (key = none → AtMost 1 [] (reads c))) ∧
    ∀ c, Steps cs mc db key c → Frugal cs mc db c ∧ (∀ r ∈ reads c, ¬ Before key r) ∧
      (key = none → c.ref = none → All (C03.refRun [] ops) c) := by
  obtain ⟨db', L, e1, hdb, hL⟩ := C03.run_inv ops Mapping.init [] [] Mapping.inv_init (by simp)
    (Cursor.legal_mono (fun S s h => ⟨by have := h.1; omega, h.2⟩) ops [] hleg)
  rw [hrun] at e1
  cases e1
  have hmax := Cursor.legal_all (P := fun s => s.max + 1 < 9223372036854775808) (fun S s h => h.1) ops [] (by simp) hleg
  have hw := world_of hdb hL hold
  have gte : ∀ id, id < 9223372036854775808 → Near (C03.refRun [] ops) id → Gte db L id := by
    intro id hid hn r hr
    obtain ⟨r', g1, g2, _⟩ := Mapping.gte_spec hdb id hid (C03.near_congr hL hn)
    rw [hr] at g1
    cases g1
    exact g2
  have hmaxL : ∀ s ∈ L, s.max + 1 < 18446744073709551616 := fun s hs => by
    have := hmax s ((hL s).1 hs); omega
  have hg : ∀ s ∈ L, Gte db L (s.max + 1) := fun s hs => gte _ (hmax s ((hL s).1 hs)) (hgap.2 s ((hL s).1 hs))
  have hopen : ∀ c, open_ cs mc db key = .ok c → EInv cs L key c ∧
      (∀ s, c.ref = some s → ∀ k, key = some k → k.id ≤ s.max) ∧ AtMost 2 [] (reads c) ∧
      (key = none → AtMost 1 [] (reads c)) := by
    intro c hc
    refine open_inv hw hmaxL hg (fun _ => gte 0 (by decide) hgap.1) (fun k hk => gte _ (hkey k hk).1 (hkey k hk).2.1) ?_ hc
    intro k hk s hs p f hp hf
    have hsL : s ∈ L := hs.1
    have hs' : IsGte (C03.refRun [] ops) k.id (some s) :=
      ⟨(hL s).1 hs.1, hs.2.1, fun u hu => hs.2.2 u ((hL u).2 hu)⟩
    obtain ⟨base, hb1, hb2⟩ := (hkey k hk).2.2 s hs'
    obtain ⟨hb, hsound⟩ := hold s hs'.1
    obtain ⟨rs, k1, k2, k3⟩ := file_of hb hsound hp
    have ha : Ascending rs.flatten := by rw [k2]; exact hsound.sorted
    obtain ⟨⟨ii, hii, h1⟩, h2, _⟩ := open_log k1 (K := some k) (fun hn => by cases hn) hf
    refine ⟨⟨rs, ii.pos, good_of k1 ha, h1, fun hn => (by cases hn), ?_⟩, h2⟩
    intro k' hk'
    cases hk'
    refine index_need k1 k3 ha (base := base) (fun e he => hb2 e (by rw [← k2]; exact he)) ?_ hb1 (hkey k hk).1 hii
    intro e he
    have := hsound.covered e (stored_all (by rw [← k2]; exact he))
    have := hmax s hs'.1
    unfold Covers at *
    omega
  refine ⟨fun c hc => (hopen c hc).2.2, ?_⟩
  have hsteps : ∀ c, Steps cs mc db key c → EInv cs L key c ∧ ∀ s, c.ref = some s → ∀ k, key = some k → k.id ≤ s.max := by
    intro c hc
    induction hc with
    | opened h => exact ⟨(hopen _ h).1, (hopen _ h).2.1⟩
    | moved _ h ih =>
      refine ⟨(next_inv hw hmaxL hg ih.2 ih.1 h).1, fun s hs k hk => ?_⟩
      refine next_ref hmaxL hg (id := k.id) (fun s hs => ?_) (fun s hs => ih.2 s hs k hk) h s hs
      have := ih.1.now
      rw [hs] at this
      exact this.1
  intro c hc
  obtain ⟨hi, hk⟩ := hsteps c hc
  obtain ⟨o1, o2, o3, o4⟩ := inv_order hi
  refine ⟨⟨o1, o3, fun c' h => (next_inv hw hmaxL hg hk hi h).2⟩, o2, fun hn hr s hs => o4 hn hr s ((hL s).2 hs)⟩

/-! ### Where it fails -/

/-- The partition of all ids, with the file of C11: one region for the id 3 and
one for the id 8. -/
def endSlice (f : PartFile) : Slice CPart :=
  ⟨0, 18446744073709551615, ⟨Memtable.init 512 508, Memtable.init 512 508, some f⟩⟩
def endDb (f : PartFile) : Mapping CPart := ⟨.node .black .nil (endSlice f) .nil, 1⟩

/-- The partitions and positions that a cursor reads in the partition of all ids: at its opening
and two moves. -/
def endReads (f : PartFile) : Option (List (Nat × Nat)) :=
  match open_ C11.plain memCmpStd (endDb f) none with
  | .ok c => match next C11.plain memCmpStd (endDb f) c with
    | .ok c => match next C11.plain memCmpStd (endDb f) c with
      | .ok c => some ((reads c).map fun r => (r.part, r.pos))
      | _ => none
    | _ => none
  | _ => none

set_option maxRecDepth 100000 in
theorem end_again : (match writeFile C11.plain C11.src C11.arg C11.two with
    | .ok w => match part_open C11.plain w.file with
      | .ok f => decide (endReads f = some [(0, 0), (0, 1), (0, 0)])
      | _ => false
    | _ => false) = true := by decide +kernel

/-- The file of C11, opened. -/
theorem two_open : ∃ f, FileOf C11.plain C11.two f ∧ endReads f = some [(0, 0), (0, 1), (0, 0)] := by
  obtain ⟨f, hf⟩ := C11.two_file
  obtain ⟨w, hw⟩ := write_safe (cs := C11.plain) (s := C11.src) C11.arg (ms := C11.two) (by intro e he; simp [C11.src] at he)
    (by simp [C11.two, WF]) (by decide) (by decide)
  have h := end_again
  rw [hw] at h
  dsimp only at h
  have hlen : w.file.length < 400 := by
    have : (match writeFile C11.plain C11.src C11.arg C11.two with
      | .ok w => w.file.length < 400
      | _ => false) = true := by decide +kernel
    rw [hw] at this
    simpa using this
  have hg : C15.NoGrowth C11.plain C11.src C11.two w.index_writer.data := ⟨fun _ _ _ => trivial, trivial⟩
  have ha : ArgWF C11.src C11.arg := by simp [ArgWF, C11.arg, C11.src]
  obtain ⟨_, p, _, _, h3, _⟩ := written_open hw (by simp [C11.two, WF]) (by omega) ha hg.1 hg.2
  refine ⟨p, ⟨C11.src, C11.arg, w, hw, h3, ha, by omega, hg⟩, ?_⟩
  rw [h3] at h
  simpa using h

/-- False of the code: in a partition that reaches the end of the id space the
cursor starts again after the last event, and reads the first region twice. -/
theorem C91_false : ¬ Full 512 508 := by
  intro h
  obtain ⟨f, hf, hr⟩ := two_open
  have h := (h C11.plain memCmpStd [.add (endSlice f)] (endDb f) (fun _ => ⟨[], [], some C11.two⟩) none
    ⟨by simp [endSlice], by simp [endSlice], by simp, trivial, trivial⟩ rfl (by
      intro s hs
      simp only [C03.refRun, C03.refStep, List.mem_singleton] at hs
      subst hs
      refine ⟨⟨⟨_, rfl⟩, ⟨_, rfl⟩, hf⟩, ?_, ?_, ?_⟩
      · simp [Content.all, Content.stored, C11.two, WF]
      · simp [Content.all, Content.stored, C11.two, Covers, endSlice]
      · simp only [Content.stored, C11.two, Ascending]; decide) (fun k hk => by cases hk)).2
  unfold endReads at hr
  cases h0 : open_ C11.plain memCmpStd (endDb f) none with
  | ok c0 =>
    rw [h0] at hr
    dsimp only at hr
    cases h1 : next C11.plain memCmpStd (endDb f) c0 with
    | ok c1 =>
      rw [h1] at hr
      dsimp only at hr
      cases h2 : next C11.plain memCmpStd (endDb f) c1 with
      | ok c2 =>
        rw [h2] at hr
        dsimp only at hr
        have ho := (h c2 (.moved (.moved (.opened h0) h1) h2)).1.order
        have hr := Option.some.inj hr
        have hp : ((reads c2).map fun r => (r.part, r.pos)).Pairwise
            fun a b => a.1 < b.1 ∨ (a.1 = b.1 ∧ a.2 < b.2) := List.pairwise_map.2 ho
        rw [hr] at hp
        simp at hp
      | err m => rw [h2] at hr; cases hr
      | abort m => rw [h2] at hr; cases hr
      | ub m => rw [h2] at hr; cases hr
    | err m => rw [h1] at hr; cases hr
    | abort m => rw [h1] at hr; cases hr
    | ub m => rw [h1] at hr; cases hr
  | err m => rw [h0] at hr; cases hr
  | abort m => rw [h0] at hr; cases hr
  | ub m => rw [h0] at hr; cases hr

/-- A second partition, with a file that holds the id 120. -/
def far : List EventMem := [⟨⟨120, 0, [], [1]⟩, []⟩]
def twoSlices (f g : PartFile) : List (C03.Op CPart) :=
  [.add ⟨100, 199, ⟨Memtable.init 512 508, Memtable.init 512 508, some g⟩⟩,
   .add ⟨0, 99, ⟨Memtable.init 512 508, Memtable.init 512 508, some f⟩⟩]
def twoCt (s : Slice CPart) : Content := if s.min = 0 then ⟨[], [], some C12.gap⟩ else ⟨[], [], some far⟩

/-- What opening a cursor after the events of id 3 reads. -/
def twoReads (f g : PartFile) : Option (List (Nat × Nat)) :=
  match C03.run Mapping.init (twoSlices f g) with
  | .ok db => match open_ C11.plain memCmpStd db (some C12.gapKey) with
    | .ok c => some ((reads c).map fun r => (r.part, r.pos))
    | _ => none
  | _ => none

set_option maxRecDepth 100000 in
theorem two_reads : (match writeFile C11.plain C11.src C11.arg C12.gap, writeFile C11.plain C11.src C11.arg far with
    | .ok w, .ok v => match part_open C11.plain w.file, part_open C11.plain v.file with
      | .ok f, .ok g => decide (w.file.length < 400) && decide (v.file.length < 400) &&
          decide (twoReads f g = some [(0, 0), (100, 0)])
      | _, _ => false
    | _, _ => false) = true := by decide +kernel

theorem two_files : ∃ f g, FileOf C11.plain C12.gap f ∧ FileOf C11.plain far g ∧ twoReads f g = some [(0, 0), (100, 0)] := by
  obtain ⟨w, hw⟩ := write_safe (cs := C11.plain) (s := C11.src) C11.arg (ms := C12.gap) (by intro e he; simp [C11.src] at he)
    (by simp [C12.gap, WF]) (by decide) (by decide)
  obtain ⟨v, hv⟩ := write_safe (cs := C11.plain) (s := C11.src) C11.arg (ms := far) (by intro e he; simp [C11.src] at he)
    (by simp [far, WF]) (by decide) (by decide)
  have h := two_reads
  rw [hw, hv] at h
  dsimp only at h
  have ha : ArgWF C11.src C11.arg := by simp [ArgWF, C11.arg, C11.src]
  have hg1 : C15.NoGrowth C11.plain C11.src C12.gap w.index_writer.data := ⟨fun _ _ _ => trivial, trivial⟩
  have hg2 : C15.NoGrowth C11.plain C11.src far v.index_writer.data := ⟨fun _ _ _ => trivial, trivial⟩
  cases hf : part_open C11.plain w.file with
  | ok f =>
    rw [hf] at h
    cases hg : part_open C11.plain v.file with
    | ok g =>
      rw [hg] at h
      simp only [Bool.and_eq_true, decide_eq_true_eq] at h
      obtain ⟨⟨h1, h2⟩, h3⟩ := h
      exact ⟨f, g, ⟨C11.src, C11.arg, w, hw, hf, ha, by omega, hg1⟩, ⟨C11.src, C11.arg, v, hv, hg, ha, by omega, hg2⟩, h3⟩
    | err m => rw [hg] at h; cases h
    | abort m => rw [hg] at h; cases h
    | ub m => rw [hg] at h; cases h
  | err m => rw [hf] at h; cases h
  | abort m => rw [hf] at h; cases h
  | ub m => rw [hf] at h; cases h

/-- Two regions are read when a cursor opens after the last event of its id in
the file: the one for the id, in which nothing is at or after the key, and the
first one of the next partition.  All is within the limits of C91_partial. -/
theorem C91_two : ∃ f g db c, C03.Legal C11.Close [] (twoSlices f g) ∧ C03.run Mapping.init (twoSlices f g) = .ok db ∧
    C11.NoBigGap (C03.refRun [] (twoSlices f g)) ∧
    Holds C11.plain memCmpStd 512 508 (C03.refRun [] (twoSlices f g)) twoCt ∧
    TameKey (C03.refRun [] (twoSlices f g)) twoCt (some C12.gapKey) ∧
    open_ C11.plain memCmpStd db (some C12.gapKey) = .ok c ∧
    (reads c).map (fun r => (r.part, r.pos)) = [(0, 0), (100, 0)] := by
  obtain ⟨f, g, hf, hg, hr⟩ := two_files
  unfold twoReads at hr
  cases h0 : C03.run Mapping.init (twoSlices f g) with
  | ok db =>
    rw [h0] at hr
    dsimp only at hr
    cases h1 : open_ C11.plain memCmpStd db (some C12.gapKey) with
    | ok c =>
      rw [h1] at hr
      refine ⟨f, g, db, c, ?_, h0, ?_, ?_, ?_, h1, Option.some.inj hr⟩
      · simp [twoSlices, C03.Legal, C03.refStep, Apart, C11.Close, Near]
      · simp [twoSlices, C03.refRun, C03.refStep, C11.NoBigGap, Near]
      · intro s hs
        simp only [twoSlices, C03.refRun, C03.refStep, List.mem_cons, List.not_mem_nil, or_false] at hs
        rcases hs with rfl | rfl
        · refine ⟨⟨⟨_, rfl⟩, ⟨_, rfl⟩, hf⟩, ?_, ?_, ?_⟩
          · simp [twoCt, Content.all, Content.stored, C12.gap, WF]
          · simp [twoCt, Content.all, Content.stored, C12.gap, Covers]
          · simp only [twoCt, if_true, Content.stored, C12.gap, Ascending]; decide
        · refine ⟨⟨⟨_, rfl⟩, ⟨_, rfl⟩, hg⟩, ?_, ?_, ?_⟩
          · simp [twoCt, Content.all, Content.stored, far, WF]
          · simp [twoCt, Content.all, Content.stored, far, Covers]
          · simp [twoCt, Content.stored, far, Ascending]
      · intro k hk
        cases hk
        refine ⟨by decide, by simp [twoSlices, C03.refRun, C03.refStep, Near, C12.gapKey], fun s hs => ?_⟩
        have hs' := hs.1
        simp only [twoSlices, C03.refRun, C03.refStep, List.mem_cons, List.not_mem_nil, or_false] at hs'
        rcases hs' with rfl | rfl
        · exact ⟨0, by simp [Within, C12.gapKey], by simp [twoCt, Content.stored, C12.gap, Within]⟩
        · exact ⟨0, by simp [Within, C12.gapKey], by simp [twoCt, Content.stored, far, Within]⟩
    | err m => rw [h1] at hr; cases hr
    | abort m => rw [h1] at hr; cases hr
    | ub m => rw [h1] at hr; cases hr
  | err m => rw [h0] at hr; cases hr
  | abort m => rw [h0] at hr; cases hr
  | ub m => rw [h0] at hr; cases hr

/-- The hypotheses are met by the partitions of C91_two, without a key and with
one: two regions are read and the limit is reached. -/
example : ∃ f g db, C03.run Mapping.init (twoSlices f g) = .ok db ∧
    (∀ c, open_ C11.plain memCmpStd db none = .ok c → AtMost 1 [] (reads c)) ∧
    ∃ c, open_ C11.plain memCmpStd db (some C12.gapKey) = .ok c ∧ (reads c).length = 2 ∧ InOrder (reads c) := by
  obtain ⟨f, g, db, c, h1, h2, h3, h4, h5, h6, h7⟩ := C91_two
  refine ⟨f, g, db, h2, fun c hc => ?_, c, h6, ?_, ?_⟩
  · exact ((C91_partial 512 508 _ _ _ db twoCt none h1 h2 h3 h4 (fun k hk => by cases hk)).1 c hc).2 rfl
  · rw [← List.length_map (f := fun r : Read => (r.part, r.pos)), h7]; rfl
  · exact ((C91_partial 512 508 _ _ _ db twoCt _ h1 h2 h3 h4 h5).2 c (.opened h6)).1.order

end Verif.C91
