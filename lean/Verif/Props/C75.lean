import Verif.Proofs.C75
import Verif.Proofs.Key

/-! C75: a partition reads the same wherever its copies are. -/
namespace Verif.C75
open Io Cold

/-- C75 for fair histories: uploads, downloads and drops of the copy in the cloud
may fail anywhere and be tried again, in any order and with restarts between.
Readers then have the file, the index and the index data that opening the written
file gives, so they get the events that were written.  Missing from `Full`:
downloads of other bytes, drops of the local copy that fail or come after a failed
drop in the cloud, and restarts with a complete and an incomplete local file, see
below. -/
theorem C75_partial (cs : Codecs) (mc : MemCmp) (src : WriterSource) (a : IndexWriter.StopArg) (ms : List EventMem) (w : Writer)
    (hw : Written cs src a ms w) (l : List Op) (hl : All cs Fair (fresh w) l) :
    ∃ s, run cs (fresh w) l = .ok s ∧ reading s = part_open cs w.file ∧ Readable cs mc s (ms.map (·.event)) := by
  obtain ⟨M, hb, hp, rs, h1, h2⟩ := base_of hw
  obtain ⟨s, h3, h4⟩ := inv_run hb l (inv_fresh hb) hl
  have h5 := inv_reading h4
  obtain ⟨it, h6, h7⟩ := scan_ok (mc := mc) h2
  refine ⟨s, h3, h5.trans hp.symm, _, it, h5, h6, ?_⟩
  rw [← h1]
  exact h7

/-- After a fair history an upload, a download and the drops work if nothing fails:
they report no error, and the copies are as asked for. -/
theorem C75_works (cs : Codecs) (src : WriterSource) (a : IndexWriter.StopArg) (ms : List EventMem) (w : Writer)
    (hw : Written cs src a ms w) (l : List Op) (hl : All cs Fair (fresh w) l) :
    ∃ s, run cs (fresh w) l = .ok s ∧
      (s.id = true → ∃ s', step cs s (.upload none) = .ok (s', none) ∧ s'.cloud = true ∧ s'.id = true) ∧
      (s.id = false → s.object = some w.file ∧
        ∃ s', step cs s (.download w.file none) = .ok (s', none) ∧ s'.id = true ∧ s'.file = some w.file ∧ s'.cloud = true) ∧
      (s.id = true → ∃ s', step cs s (.dropCloud none) = .ok (s', none) ∧ s'.cloud = false ∧ s'.id = true ∧
        (s.cloud = true → s'.object = none ∧ s'.cloudFile = none)) ∧
      (s.cloud = true → ∃ s', step cs s (.dropLocal false) = .ok (s', none) ∧ s'.id = false ∧ s'.cloud = true ∧
        (s.id = true → s'.file = none ∧ s'.fd = none)) := by
  obtain ⟨M, hb, _⟩ := base_of hw
  obtain ⟨s, h3, h4⟩ := inv_run hb l (inv_fresh hb) hl
  refine ⟨s, h3, ?_, ?_, ?_, ?_⟩
  · intro hid
    show ∃ s', upload s none = _ ∧ _
    unfold upload
    split
    · rename_i hc; exact ⟨s, rfl, hc, hid⟩
    · rw [if_neg (by rw [hid]; simp)]
      simp only [(h4.id hid).1, hb.dump]
      exact ⟨_, rfl, rfl, hid⟩
  · intro hid
    obtain ⟨g1, g2, _⟩ := h4.away hid
    have ho : s.object = some w.file := by
      rcases h4.cloudFile with e | e
      · rw [e] at g2; cases g2
      · exact e.2
    refine ⟨ho, ?_⟩
    show ∃ s', download s w.file none = _ ∧ _
    unfold download
    rw [if_neg (by rw [hid]; simp), if_neg (by rw [g1]; simp)]
    split
    · rename_i e; rw [ho] at e; cases e
    · obtain ⟨fd, lost, e, k1, k2, _, _⟩ := open_file_ok (s := { s with file := some w.file, incomplete := none }) hb h4.index none
      rw [k1, (k2 rfl).1]
      exact ⟨_, rfl, rfl, rfl, g1⟩
  · intro hid
    refine ⟨(dropCloud s none).1, ?_, ?_⟩
    · show Res.ok (dropCloud s none) = _
      unfold dropCloud
      split <;> rfl
    · unfold dropCloud
      split
      · rename_i hc
        have : dropped s = s := by unfold dropped; rw [if_neg (by rw [hid]; simp)]
        simp only [this]
        exact ⟨hc, hid, fun e => by rw [hc] at e; cases e⟩
      · dsimp only
        unfold dropped
        rw [if_neg (fun k => by have k1 : s.id = false := k.1; rw [hid] at k1; cases k1)]
        exact ⟨rfl, hid, fun _ => ⟨rfl, rfl⟩⟩
  · intro hc
    refine ⟨(dropLocal s false).1, ?_, ?_⟩
    · show Res.ok (dropLocal s false) = _
      unfold dropLocal
      split
      · rfl
      · rw [if_neg (by simp)]
    · unfold dropLocal
      split
      · rename_i hid
        have : dropped s = s := by unfold dropped; rw [if_neg (by rw [hc]; simp)]
        simp only [this]
        exact ⟨hid, hc, fun e => by rw [hid] at e; cases e⟩
      · rw [if_neg (by simp)]
        unfold dropped
        rw [if_neg (by simp only [hc]; simp)]
        exact ⟨rfl, hc, fun _ => ⟨rfl, rfl⟩⟩

/-- No descriptor is lost by fair operations if no download fails after its rename. -/
theorem C75_descriptors (cs : Codecs) (src : WriterSource) (a : IndexWriter.StopArg) (ms : List EventMem) (w : Writer)
    (hw : Written cs src a ms w) (l : List Op) (hl : All cs Fair (fresh w) l) (he : ∀ o ∈ l, Early o) :
    ∃ s, run cs (fresh w) l = .ok s ∧ s.lost = 0 := by
  obtain ⟨M, hb, _⟩ := base_of hw
  suffices H : ∀ (l : List Op) (s : State), Inv w.file M w.index_writer.index w.index_writer.data s →
      s.lost = 0 → (s.id = false → s.fd = none) → All cs Fair s l → (∀ o ∈ l, Early o) →
      ∃ s', run cs s l = .ok s' ∧ s'.lost = 0 from
    H l (fresh w) (inv_fresh hb) rfl (fun e => by cases e) hl he
  intro l
  induction l with
  | nil => intro s _ h0 _ _ _; exact ⟨s, rfl, h0⟩
  | cons o l ih =>
    intro s hi h0 hfd ha hea
    obtain ⟨s', e, h1, h2⟩ := inv_step hb hi ha.1
    have key := quiet_step hb hi h0 hfd ha.1 (hea o (by simp)) h1
    obtain ⟨s2, h3, h4⟩ := ih s' h2 key.1 key.2 (ha.2 s' e h1) fun o ho => hea o (by simp [ho])
    refine ⟨s2, ?_, h4⟩
    simp only [run, h1, Res.bind_ok]
    exact h3

/-- A download that fails before or at its rename changes nothing for readers,
whatever it delivers and whatever the partition was. -/
theorem C75_failed_transfer (s s' : State) (got : Bytes) (f : DownFault) (e : Option String) (hf : ∀ x, f ≠ .open x)
    (h : download s got (some f) = .ok (s', e)) : reading s' = reading s ∧ s'.id = s.id ∧ s'.cloud = s.cloud ∧ s'.file = s.file := by
  unfold download at h
  split at h
  · cases h; exact ⟨rfl, rfl, rfl, rfl⟩
  · split at h
    · cases h; exact ⟨rfl, rfl, rfl, rfl⟩
    · split at h
      · cases h; exact ⟨rfl, rfl, rfl, rfl⟩
      · cases f with
        | transfer bs => cases h; exact ⟨rfl, rfl, rfl, rfl⟩
        | rename => cases h; exact ⟨rfl, rfl, rfl, rfl⟩
        | «open» x => exact absurd rfl (hf x)

/-- A download that reports no error and makes the partition local has delivered a
file with a valid footer, which is now the index of the partition.  The index data
is not read again. -/
theorem C75_download_checked (s s' : State) (got : Bytes) (h0 : s.id = false)
    (h : download s got none = .ok (s', none)) (hid : s'.id = true) :
    index_open false got = .ok s'.index ∧ s'.fd = some got ∧ s'.file = some got ∧ s'.index_data = s.index_data := by
  unfold download at h
  rw [if_neg (by rw [h0]; simp)] at h
  split at h
  · cases h; rw [h0] at hid; cases hid
  · split at h
    · cases h
    · obtain ⟨⟨s1, e1⟩, h1, h2⟩ := Res.bind_eq_ok.1 h
      cases e1 with
      | some e => cases h2
      | none =>
        simp only at h2
        cases h2
        unfold part_open_file at h1
        rw [if_neg (by simp)] at h1
        simp only at h1
        split at h1
        · cases h1
        · rename_i hl
          obtain ⟨i, h3, h4⟩ := Res.bind_eq_ok.1 h1
          simp only [Res.ok.injEq, Prod.mk.injEq] at h4
          obtain ⟨h4, h5⟩ := h4
          subst h4
          refine ⟨?_, rfl, rfl, rfl⟩
          unfold index_open pread
          rw [if_neg hl, if_neg (by omega)]
          simp only [Res.bind_ok]
          have ht : (got.drop (got.length - 130)).take 130 = got.drop (got.length - 130) :=
            List.take_of_length_le (by rw [List.length_drop]; omega)
          rw [ht, h3]
          simp only [Res.bind_ok]
          unfold index_check at h5
          simp only [Bool.false_eq_true, if_false] at h5 ⊢
          split at h5
          · cases h5
          · rename_i q1
            rw [if_neg q1]
            split at h5
            · cases h5
            · rename_i q2
              rw [if_neg q2]
              split at h5
              · cases h5
              · rename_i q3
                rw [if_neg q3]
                split at h5
                · cases h5
                · rename_i q4
                  rw [if_neg q4]

/-! Concrete histories. -/

def cs : Codecs := ⟨fun _ => none, fun _ => none⟩
def src : WriterSource := { region_size := 1000, crc := true, compression := 0, encryption := 0 }
def arg : IndexWriter.StopArg :=
  { id_min := 0, id_max := 99, refreshes := 1, time_create := 0, time_refresh := 0, lsn := 7, compression := 0, encryption := 0 }

def one : List EventMem := [⟨⟨5, 0, [], [1, 2]⟩, []⟩]

/-- Check a history that depends on the written file. -/
def onFile (ms : List EventMem) (f : Writer → Bool) : Bool :=
  match writeFile cs src arg ms with
  | .ok w => decide (w.file.length < 4294967296) && f w
  | _ => false

theorem written {f : Writer → Bool} (h : onFile one f = true) : ∃ w, Written cs src arg one w ∧ f w = true := by
  unfold onFile at h
  split at h
  · rename_i w hw
    simp only [Bool.and_eq_true, decide_eq_true_eq] at h
    refine ⟨w, ⟨?_, by unfold ArgWF; decide, hw, h.1, fun _ _ _ => trivial, trivial⟩, h.2⟩
    intro m hm
    simp only [one, List.mem_singleton] at hm
    subst hm
    unfold WF
    decide
  · cases h

/-- All the operations are as wanted. -/
def check (P : State → Op → Bool) : State → List Op → Bool
  | _, [] => true
  | s, o :: l => P s o && match step cs s o with
    | .ok (s, _) => check P s l
    | _ => true

theorem check_sound {P : State → Op → Bool} {Q : State → Op → Prop} (hp : ∀ s o, P s o = true → Q s o) :
    ∀ (l : List Op) (s : State), check P s l = true → All cs Q s l
  | [], _, _ => trivial
  | o :: l, s, h => by
    simp only [check, Bool.and_eq_true] at h
    refine ⟨hp s o h.1, ?_⟩
    intro s' e hs
    rw [hs] at h
    exact check_sound hp l s' h.2

def fairB (s : State) : Op → Bool
  | .upload _ => true
  | .download got _ => match s.object with
    | some b => decide (got = b)
    | none => true
  | .dropLocal fail => !fail && (s.cloud && (s.cloudFile.isSome && s.object.isSome))
  | .dropCloud _ => s.id
  | .restart => !(s.file.isSome && (s.incomplete.isSome && s.cloudFile.isSome))

theorem fairB_sound (s : State) (o : Op) (h : fairB s o = true) : Fair s o := by
  cases o with
  | upload => trivial
  | download got f =>
    intro b hb
    simp only [fairB, hb, decide_eq_true_eq] at h
    exact h
  | dropLocal fail => simpa [fairB, Fair] using h
  | dropCloud => simpa [fairB, Fair] using h
  | restart =>
    show ¬ (_ ∧ _ ∧ _)
    simp only [fairB, Bool.not_eq_true', Bool.and_eq_false_iff] at h
    grind

def allowedB (s : State) : Op → Bool
  | .dropLocal _ => s.cloud
  | .dropCloud _ => s.id
  | _ => true

theorem allowedB_sound (s : State) (o : Op) (h : allowedB s o = true) : Allowed s o := by
  cases o <;> first | trivial | exact h

/-- Read at most `n` events. -/
def drain : Nat → PartIterator → Res (List Event)
  | n, it => match it.at_ with
    | none => .ok []
    | some e => match n with
      | 0 => .abort "more"
      | n + 1 => (it.next cs memCmpStd).bind fun it => (drain n it).bind fun l => .ok (e :: l)

/-- Read a partition of up to three events. -/
def readAll (s : State) : Res (List Event) :=
  (reading s).bind fun p => (PartIterator.open_ cs memCmpStd p none).bind fun (it, _) => drain 3 it

theorem drain_yields {it : PartIterator} {l : List Event} (h : Yields PartIterator.at_ (PartIterator.next cs memCmpStd) it l) :
    ∀ n, l.length ≤ n → drain n it = .ok l := by
  induction h with
  | done h => intro n _; cases n <;> (rw [drain]; simp only [h])
  | more h1 h2 _ ih =>
    intro n hn
    cases n with
    | zero => simp at hn
    | succ n =>
      rw [drain]
      simp only [h1, h2, Res.bind_ok]
      rw [ih n (by simpa using hn)]
      rfl

theorem readable_readAll {s : State} {l : List Event} (h : Readable cs memCmpStd s l) (hl : l.length ≤ 3) : readAll s = .ok l := by
  obtain ⟨p, it, h1, h2, h3⟩ := h
  unfold readAll
  rw [h1]
  simp only [Res.bind_ok]
  rw [h2]
  simp only [Res.bind_ok]
  exact drain_yields h3 3 hl

/-- The state after a history. -/
def after (w : Writer) (l : List Op) (f : State → Bool) : Bool :=
  match run cs (fresh w) l with
  | .ok s => f s
  | _ => false

theorem after_sound {w : Writer} {l : List Op} {f : State → Bool} (h : after w l f = true) :
    ∃ s, run cs (fresh w) l = .ok s ∧ f s = true := by
  unfold after at h
  split at h
  · exact ⟨_, ‹_›, h⟩
  · cases h

/-- A long fair history with many failures. -/
def goodHistory (w : Writer) : List Op :=
  [.upload (some (.create [1, 2])), .restart, .upload (some .refused), .upload (some .answer), .upload (some .rename), .restart, .upload none,
   .dropCloud (some .unlink), .dropCloud (some .refused), .dropCloud (some .answer), .dropCloud none, .upload none, .dropLocal false,
   .restart, .download w.file (some (.transfer [1])), .restart, .download w.file (some .rename),
   .download w.file (some (.open .open)), .download w.file (some (.open (.read 7))), .download w.file none, .restart,
   .dropLocal false, .download w.file none, .dropCloud none, .restart]

set_option maxRecDepth 100000 in
example : ∃ w, Written cs src arg one w ∧ All cs Fair (fresh w) (goodHistory w) ∧
    ∃ s, run cs (fresh w) (goodHistory w) = .ok s ∧ Readable cs memCmpStd s (one.map (·.event)) := by
  obtain ⟨w, h1, h2⟩ := written (f := fun w => check fairB (fresh w) (goodHistory w)) (by decide +kernel)
  have h3 := check_sound fairB_sound _ _ h2
  obtain ⟨s, h4, _, h5⟩ := C75_partial cs memCmpStd src arg one w h1 _ h3
  exact ⟨w, h1, h3, s, h4, h5⟩

/-- The file is only in the cloud. -/
def away : List Op := [.upload none, .dropLocal false]

set_option maxRecDepth 100000 in
/-- States with each combination of copies are reached by fair histories, and one
without failures keeps its descriptors. -/
example : ∃ w, Written cs src arg one w ∧ All cs Fair (fresh w) away ∧ (∀ o ∈ away, Early o) ∧
    ∃ s, run cs (fresh w) away = .ok s ∧ s.id = false ∧ s.cloud = true ∧ s.lost = 0 := by
  obtain ⟨w, h1, h2⟩ := written (f := fun w => check fairB (fresh w) away && after w away fun s => !s.id && s.cloud) (by decide +kernel)
  simp only [Bool.and_eq_true] at h2
  have h3 := check_sound fairB_sound _ _ h2.1
  obtain ⟨s, h4, h5⟩ := after_sound h2.2
  have he : ∀ o ∈ away, Early o := by simp [away, Early]
  obtain ⟨s', h6, h7⟩ := C75_descriptors cs src arg one w h1 _ h3 he
  rw [h4] at h6; cases h6
  simp only [Bool.and_eq_true, Bool.not_eq_true'] at h5
  exact ⟨w, h1, h3, he, s, h4, h5.1, h5.2, h7⟩

set_option maxRecDepth 100000 in
/-- A download that fails on its way, and one that works. -/
example : ∃ w, Written cs src arg one w ∧ ∃ s, run cs (fresh w) away = .ok s ∧ s.id = false ∧
    (∃ s' e, download s w.file (some (.transfer [1])) = .ok (s', some e)) ∧
    ∃ s', download s w.file none = .ok (s', none) ∧ s'.id = true := by
  obtain ⟨w, h1, h2⟩ := written (f := fun w => after w away fun s => !s.id &&
    ((match download s w.file (some (.transfer [1])) with
      | .ok (_, some _) => true
      | _ => false) &&
    match download s w.file none with
      | .ok (s', none) => s'.id
      | _ => false)) (by decide +kernel)
  obtain ⟨s, h4, h5⟩ := after_sound h2
  simp only [Bool.and_eq_true, Bool.not_eq_true'] at h5
  obtain ⟨h5, h6, h7⟩ := h5
  refine ⟨w, h1, s, h4, h5, ?_, ?_⟩
  · split at h6
    · exact ⟨_, _, ‹_›⟩
    · cases h6
  · split at h7
    · exact ⟨_, ‹_›, h7⟩
    · cases h7

/-- The file with another number of regions in its footer. -/
def damaged (w : Writer) (n : Nat) : Bytes :=
  w.file.take (w.file.length - 130) ++ { w.index_writer.index with regions := n }.bytes

set_option maxRecDepth 100000 in
/-- A download that delivers a damaged footer reports an error, but its damaged index
is what the partition is read with from then on: the events are gone. -/
theorem C75_damaged_download : ∃ w, Written cs src arg one w ∧ ∃ s s', run cs (fresh w) away = .ok s ∧
    Readable cs memCmpStd s (one.map (·.event)) ∧
    download s (damaged w 0) none = .ok (s', some "partition: file index crc mismatch") ∧
    s'.id = false ∧ readAll s' = .ok [] ∧ ¬ Readable cs memCmpStd s' (one.map (·.event)) := by
  obtain ⟨w, h1, h2⟩ := written (f := fun w => check fairB (fresh w) away && after w away fun s =>
    match download s (damaged w 0) none with
    | .ok (s', e) => decide (e = some "partition: file index crc mismatch") && (!s'.id && decide (readAll s' = .ok []))
    | _ => false) (by decide +kernel)
  simp only [Bool.and_eq_true] at h2
  obtain ⟨s, h4, _, h5⟩ := C75_partial cs memCmpStd src arg one w h1 _ (check_sound fairB_sound _ _ h2.1)
  obtain ⟨s2, h6, h7⟩ := after_sound h2.2
  rw [h4] at h6; cases h6
  split at h7
  · rename_i s' e hd
    simp only [Bool.and_eq_true, decide_eq_true_eq, Bool.not_eq_true'] at h7
    refine ⟨w, h1, s, s', h4, h5, ?_, h7.2.1, h7.2.2, fun hr => ?_⟩
    rotate_left
    · have := readable_readAll hr (by decide)
      rw [h7.2.2] at this
      cases this
    rw [hd, h7.1]
  · cases h7

set_option maxRecDepth 100000 in
/-- The same with a footer that counts more regions: readers leave the index data. -/
theorem C75_damaged_download_reads : ∃ w, Written cs src arg one w ∧ ∃ s s', run cs (fresh w) away = .ok s ∧
    Readable cs memCmpStd s (one.map (·.event)) ∧
    download s (damaged w 2) none = .ok (s', some "partition: file index crc mismatch") ∧
    ∃ what, readAll s' = .ub what := by
  obtain ⟨w, h1, h2⟩ := written (f := fun w => check fairB (fresh w) away && after w away fun s =>
    match download s (damaged w 2) none with
    | .ok (s', e) => decide (e = some "partition: file index crc mismatch") && match readAll s' with
      | .ub _ => true
      | _ => false
    | _ => false) (by decide +kernel)
  simp only [Bool.and_eq_true] at h2
  obtain ⟨s, h4, _, h5⟩ := C75_partial cs memCmpStd src arg one w h1 _ (check_sound fairB_sound _ _ h2.1)
  obtain ⟨s2, h6, h7⟩ := after_sound h2.2
  rw [h4] at h6; cases h6
  split at h7
  · rename_i s' e hd
    simp only [Bool.and_eq_true, decide_eq_true_eq] at h7
    obtain ⟨h7, h8⟩ := h7
    split at h8
    · rename_i what hr
      refine ⟨w, h1, s, s', h4, h5, ?_, what, hr⟩
      rw [hd, h7]
    · cases h8
  · cases h7

set_option maxRecDepth 100000 in
/-- If the local file cannot be removed it is closed all the same, and the partition
cannot be read although both copies are there. -/
theorem C75_failed_drop : ∃ w, Written cs src arg one w ∧ All cs Allowed (fresh w) [.upload none, .dropLocal true] ∧
    ∃ s, run cs (fresh w) [.upload none, .dropLocal true] = .ok s ∧ s.file = some w.file ∧ s.object = some w.file ∧
      reading s = .err "file: pread error" := by
  obtain ⟨w, h1, h2⟩ := written (f := fun w => check allowedB (fresh w) [.upload none, .dropLocal true] &&
    after w [.upload none, .dropLocal true] fun s => decide (s.file = some w.file) && (decide (s.object = some w.file) && match reading s with
      | .err m => decide (m = "file: pread error")
      | _ => false)) (by decide +kernel)
  simp only [Bool.and_eq_true] at h2
  obtain ⟨s, h6, h7⟩ := after_sound h2.2
  simp only [Bool.and_eq_true, decide_eq_true_eq] at h7
  refine ⟨w, h1, check_sound allowedB_sound _ _ h2.1, s, h6, h7.1, h7.2.1, ?_⟩
  have h8 := h7.2.2
  split at h8
  · rename_i m hr; rw [hr]; simp only [decide_eq_true_eq] at h8; rw [h8]
  · cases h8

/-- The cloud removes the object but its answer does not arrive; the partition still
counts as being in the cloud, and its local copy may be dropped. -/
def lostAnswer : List Op := [.upload none, .dropCloud (some .answer), .dropLocal false]

set_option maxRecDepth 100000 in
/-- Both copies are gone then. -/
theorem C75_lost_answer : ∃ w, Written cs src arg one w ∧ All cs Allowed (fresh w) lostAnswer ∧
    ∃ s, run cs (fresh w) lostAnswer = .ok s ∧ s.file = none ∧ s.object = none ∧ reading s = .err "s3: not found" := by
  obtain ⟨w, h1, h2⟩ := written (f := fun w => check allowedB (fresh w) lostAnswer &&
    after w lostAnswer fun s => decide (s.file = none) && (decide (s.object = none) && match reading s with
      | .err m => decide (m = "s3: not found")
      | _ => false)) (by decide +kernel)
  simp only [Bool.and_eq_true] at h2
  obtain ⟨s, h6, h7⟩ := after_sound h2.2
  simp only [Bool.and_eq_true, decide_eq_true_eq] at h7
  refine ⟨w, h1, check_sound allowedB_sound _ _ h2.1, s, h6, h7.1, h7.2.1, ?_⟩
  have h8 := h7.2.2
  split at h8
  · rename_i m hr; rw [hr]; simp only [decide_eq_true_eq] at h8; rw [h8]
  · cases h8

/-- The cloud refuses to remove the object, whose cloud file is gone already. -/
def refusedDrop : List Op := [.upload none, .dropCloud (some .refused), .dropLocal false]

set_option maxRecDepth 100000 in
/-- The partition can be read until the next restart, which does not find it. -/
theorem C75_refused_drop : ∃ w, Written cs src arg one w ∧ All cs Allowed (fresh w) refusedDrop ∧
    ∃ s, run cs (fresh w) refusedDrop = .ok s ∧ s.object = some w.file ∧ readAll s = .ok (one.map (·.event)) ∧
      restart cs s = .err "no partition" := by
  obtain ⟨w, h1, h2⟩ := written (f := fun w => check allowedB (fresh w) refusedDrop &&
    after w refusedDrop fun s => decide (s.object = some w.file) && (decide (readAll s = .ok (one.map (·.event))) &&
      match restart cs s with
      | .err m => decide (m = "no partition")
      | _ => false)) (by decide +kernel)
  simp only [Bool.and_eq_true] at h2
  obtain ⟨s, h6, h7⟩ := after_sound h2.2
  simp only [Bool.and_eq_true, decide_eq_true_eq] at h7
  refine ⟨w, h1, check_sound allowedB_sound _ _ h2.1, s, h6, h7.1, h7.2.1, ?_⟩
  have h8 := h7.2.2
  split at h8
  · rename_i m hr; rw [hr]; simp only [decide_eq_true_eq] at h8; rw [h8]
  · cases h8

/-- A restart never makes a complete file of an unfinished one: the files with
complete names and the object are as before, the unfinished ones are gone. -/
theorem C75_restart_keeps {cs : Codecs} {s s' : State} (h : restart cs s = .ok s') :
    s'.file = s.file ∧ s'.cloudFile = s.cloudFile ∧ s'.object = s.object ∧
    s'.incomplete = none ∧ s'.cloudIncomplete = none := by
  unfold restart at h
  obtain ⟨v, hv, h⟩ := (Res.bind_eq_ok).1 h
  have hk : v.file = s.file ∧ v.cloudFile = s.cloudFile ∧ v.object = s.object ∧
      v.incomplete = none ∧ v.cloudIncomplete = none := by
    obtain ⟨file, inc, cf, ci, _, _, _, _, _, _, _⟩ := s
    cases file <;> cases inc <;> cases cf <;> cases ci <;> simp [validate] at hv <;> (subst hv; simp)
  split at h
  · obtain ⟨i, _, h⟩ := (Res.bind_eq_ok).1 h
    obtain ⟨d, _, h⟩ := (Res.bind_eq_ok).1 h
    cases h
    exact hk
  · obtain ⟨i, _, h⟩ := (Res.bind_eq_ok).1 h
    obtain ⟨d, _, h⟩ := (Res.bind_eq_ok).1 h
    cases h
    exact hk
  · cases h

set_option maxRecDepth 100000 in
/-- Met: a restart after an unfinished download. -/
example : ∃ w, Written cs src arg one w ∧ ∃ s s', run cs (fresh w) (away ++ [.download w.file (some (.transfer [1]))]) = .ok s ∧
    s.incomplete = some [1] ∧ restart cs s = .ok s' := by
  obtain ⟨w, h1, h2⟩ := written (f := fun w => after w (away ++ [.download w.file (some (.transfer [1]))]) fun s =>
    s.incomplete == some [1] && (match restart cs s with | .ok _ => true | _ => false)) (by decide +kernel)
  obtain ⟨s, h4, h5⟩ := after_sound h2
  rw [Bool.and_eq_true, beq_iff_eq] at h5
  obtain ⟨h5, h6⟩ := h5
  split at h6
  · rename_i s' e
    exact ⟨w, h1, s, s', h4, h5, e⟩
  · cases h6

/-- A download that fails when it opens the file, and one that fails on its way. -/
def twoDownloads (w : Writer) : List Op :=
  [.upload none, .dropLocal false, .download w.file (some (.open (.read 0))), .download w.file (some (.transfer []))]

set_option maxRecDepth 100000 in
/-- After the two the database cannot be opened again, though both copies are
complete; and the second leaves the descriptor of the first open. -/
theorem C75_two_downloads : ∃ w, Written cs src arg one w ∧ All cs Fair (fresh w) (twoDownloads w) ∧
    ∃ s, run cs (fresh w) (twoDownloads w) = .ok s ∧ s.file = some w.file ∧ s.object = some w.file ∧
      restart cs s = .err "partition has unexpected state" ∧
      ∃ s', step cs s (.download w.file none) = .ok (s', none) ∧ s'.lost = 1 := by
  obtain ⟨w, h1, h2⟩ := written (f := fun w => check fairB (fresh w) (twoDownloads w) &&
    after w (twoDownloads w) fun s => decide (s.file = some w.file) && (decide (s.object = some w.file) &&
      ((match restart cs s with
      | .err m => decide (m = "partition has unexpected state")
      | _ => false) &&
      match step cs s (.download w.file none) with
      | .ok (s', e) => decide (e = none) && decide (s'.lost = 1)
      | _ => false))) (by decide +kernel)
  simp only [Bool.and_eq_true] at h2
  obtain ⟨s, h6, h7⟩ := after_sound h2.2
  simp only [Bool.and_eq_true, decide_eq_true_eq] at h7
  refine ⟨w, h1, check_sound fairB_sound _ _ h2.1, s, h6, h7.1, h7.2.1, ?_, ?_⟩
  · have h8 := h7.2.2.1
    split at h8
    · rename_i m hr; rw [hr]; simp only [decide_eq_true_eq] at h8; rw [h8]
    · cases h8
  · have h8 := h7.2.2.2
    split at h8
    · rename_i s' e hr
      simp only [Bool.and_eq_true, decide_eq_true_eq] at h8
      exact ⟨s', by rw [hr, h8.1], h8.2⟩
    · cases h8

/-- C75 in full does not hold of the code. -/
theorem C75_false : ¬ Full := by
  intro hf
  obtain ⟨w, h1, h2, s, h3, _, _, h5⟩ := C75_lost_answer
  obtain ⟨s', h6, p, it, h7, _⟩ := hf cs memCmpStd src arg one w h1 _ h2
  rw [h3] at h6
  cases h6
  rw [h5] at h7
  cases h7

/-- A partition that an upload makes one of the cloud has its object and its cloud
file there, whatever fails, and the object is its file. -/
theorem C75_uploaded (s s' : State) (fault : Option UpFault) (e : Option String) (h : upload s fault = .ok (s', e)) (hc : s.cloud = false)
    (hc' : s'.cloud = true) : e = none ∧ s'.cloudFile.isSome = true ∧ s'.object = s.file ∧ s.file.isSome = true := by
  unfold upload at h
  rw [if_neg (by simp [hc])] at h
  split at h
  · cases h; rw [hc] at hc'; cases hc'
  · have no : ∀ {t : State}, t.cloud = s.cloud → t.cloud = true → False := by
      intro t h1 h2
      rw [h1, hc] at h2
      cases h2
    dsimp only at h
    split at h
    · cases h; exact (no rfl hc').elim
    · rename_i file hf
      have hf : s.file = some file := hf
      split at h
      · cases h; exact (no rfl hc').elim
      · cases h
      · cases h
      · split at h <;> cases h <;> first | exact (no rfl hc').elim | exact ⟨rfl, rfl, hf.symm, by rw [hf]; rfl⟩

set_option maxRecDepth 100000 in
/-- An upload of a file with one event, and one that the cloud refuses. -/
example : ∃ w, Written cs src arg one w ∧ (∃ s', upload (fresh w) none = .ok (s', none) ∧ (fresh w).cloud = false ∧ s'.cloud = true) ∧
    ∃ s', upload (fresh w) (some .refused) = .ok (s', some "s3: refused") ∧ s'.cloud = false := by
  obtain ⟨w, h1, h2⟩ := written (f := fun w => (match upload (fresh w) none with
      | .ok (s', e) => decide (e = none) && s'.cloud
      | _ => false) && match upload (fresh w) (some .refused) with
      | .ok (s', e) => decide (e = some "s3: refused") && !s'.cloud
      | _ => false) (by decide +kernel)
  simp only [Bool.and_eq_true] at h2
  refine ⟨w, h1, ?_, ?_⟩
  · have h := h2.1
    split at h
    · rename_i s' e he
      simp only [Bool.and_eq_true, decide_eq_true_eq] at h
      exact ⟨s', by rw [he, h.1], rfl, h.2⟩
    · cases h
  · have h := h2.2
    split at h
    · rename_i s' e he
      simp only [Bool.and_eq_true, decide_eq_true_eq, Bool.not_eq_true'] at h
      exact ⟨s', by rw [he, h.1], h.2⟩
    · cases h

end Verif.C75
