import Verif.Spec.C96
import Verif.Props.C55

/-! C96: the test cloud gives back what was uploaded. -/
namespace Verif.C96
open Mock Left C55

theorem upload_bytes (old : Option Bytes) (b : Bytes) (n : Nat) :
    mock_upload old b n = over (match old with | none => [] | some o => o) (b.take n) := by
  cases old <;> simp [mock_upload, file_create, file_write, over]

theorem run_append : ∀ (h k : List Mock.Step) (s : State), Mock.run s (h ++ k) = Mock.run (Mock.run s h) k
  | [], _, _ => rfl
  | _ :: h, k, s => run_append h k _

/-- What is in the cloud of a partition. -/
def there (s : State) : Bytes := match s.object with | none => [] | some o => o

theorem back {s : State} {b : Bytes} (hf : s.file = some b) (hc : s.cloud = false) :
    (Mock.run s [.upload none, .dropLocal, .download]).file = some (over (there s) b) := by
  obtain ⟨f, o, c⟩ := s
  simp only at hf hc
  subst hf hc
  simp [Mock.run, Mock.step, upload_bytes, there]

/-- Exactly when it holds: the file in the `mock` directory, if there is one, is not
longer. -/
theorem C96_exact (h : List Mock.Step) (b : Bytes) (hf : (Mock.run {} h).file = some b) (hc : (Mock.run {} h).cloud = false) :
    (Mock.run {} (h ++ [.upload none, .dropLocal, .download])).file = some b ↔
      ∀ o, (Mock.run {} h).object = some o → o.length ≤ b.length := by
  rw [run_append, back hf hc, Option.some.injEq]
  constructor
  · intro e o ho
    have := congrArg List.length e
    rw [over_length, there, ho] at this
    simp only at this
    omega
  · intro e
    rw [over, List.drop_eq_nil_of_le, List.append_nil]
    unfold there
    cases ho : (Mock.run {} h).object with
    | none => simp
    | some o => exact e o ho

/-- In any case what is given back starts with what was uploaded. -/
theorem C96_prefix (h : List Mock.Step) (b : Bytes) (hf : (Mock.run {} h).file = some b) (hc : (Mock.run {} h).cloud = false) :
    ∃ rest, (Mock.run {} (h ++ [.upload none, .dropLocal, .download])).file = some (b ++ rest) := by
  rw [run_append, back hf hc]
  exact ⟨_, rfl⟩

/-- While a partition is in the cloud, nothing but its removal changes the file there. -/
theorem C96_kept (s : State) (x : Mock.Step) (hc : s.cloud = true) (hx : ∀ e, x ≠ .dropCloud e) :
    (Mock.step s x).object = s.object ∧ (Mock.step s x).cloud = true := by
  cases x with
  | refresh b => simp [Mock.step, hc]
  | upload stop => simp [Mock.step, hc]
  | dropLocal => simp [Mock.step, hc]
  | dropCloud e => exact absurd rfl (hx e)
  | download =>
    simp only [Mock.step, hc, if_true]
    split <;> simp [hc]

/-- A region read from the cloud after an upload is the region of the uploaded file,
whatever was there before. -/
theorem C96_read (s : State) (b : Bytes) (size offset : Nat) (hf : s.file = some b) (hc : s.cloud = false)
    (h0 : 0 < size) (hs : offset + size ≤ b.length) :
    ∃ o, (Mock.step s (.upload none)).object = some o ∧ mock_read o size offset = .ok ((b.drop offset).take size) := by
  obtain ⟨f, old, c⟩ := s
  simp only at hf hc
  subst hf hc
  refine ⟨over (there ⟨some b, old, false⟩) b, by simp [Mock.step, upload_bytes, there], ?_⟩
  rw [mock_read, Io.pread, if_neg (by rw [over_length]; omega), over, List.drop_append_of_le_length (by omega),
    List.take_append_of_le_length (by rw [List.length_drop]; omega)]

theorem undisturbed_run : ∀ (h : List Mock.Step) (s : State), Undisturbed h → (s.cloud = false → s.object = none) →
    (Mock.run s h).cloud = false → (Mock.run s h).object = none
  | [], _, _, hi => hi
  | x :: h, s, hu, hi => by
    rw [Mock.run]
    refine undisturbed_run h _ (fun y hy => hu y (List.mem_cons_of_mem _ hy)) ?_
    have hx := hu x List.mem_cons_self
    obtain ⟨f, o, c⟩ := s
    simp only at hi
    cases x with
    | refresh b => cases c <;> simp_all [Mock.step]
    | upload stop =>
      cases stop with
      | none => cases c <;> cases f <;> simp_all [Mock.step]
      | some t => cases t <;> cases c <;> cases f <;> simp_all [Mock.step]
    | dropLocal => simpa [Mock.step] using hi
    | dropCloud e => cases c <;> simp_all [Mock.step]
    | download => cases c <;> cases f <;> cases o <;> simp_all [Mock.step]

/-- Partial: it holds if no upload stopped halfway and no removal was cut short.
Missing: see C96_false. -/
theorem C96_undisturbed_partial (h : List Mock.Step) (b : Bytes) (hu : Undisturbed h)
    (hf : (Mock.run {} h).file = some b) (hc : (Mock.run {} h).cloud = false) :
    (Mock.run {} (h ++ [.upload none, .dropLocal, .download])).file = some b := by
  rw [C96_exact h b hf hc]
  intro o ho
  rw [undisturbed_run h {} hu (fun _ => rfl) hc] at ho
  cases ho

/-- The file in the cloud is not longer than the local one, and neither is longer than
the last refresh. -/
structure Small (n : Nat) (s : State) : Prop where
  object : ∀ o, s.object = some o → o.length ≤ n
  file : ∀ b, s.file = some b → b.length ≤ n
  both : ∀ o b, s.object = some o → s.file = some b → o.length ≤ b.length

theorem over_small {old : Option Bytes} {b : Bytes} (n : Nat) (h : ∀ o, old = some o → o.length ≤ b.length) :
    (mock_upload old b n).length ≤ b.length := by
  rw [upload_bytes, over_length]
  cases old with
  | none => simp; omega
  | some o => have := h o rfl; simp; omega

theorem grows_run : ∀ (h : List Mock.Step) (n : Nat) (s : State), Grows n h → Small n s → ∃ m, Small m (Mock.run s h)
  | [], n, _, _, hi => ⟨n, hi⟩
  | x :: h, n, s, hg, hi => by
    rw [Mock.run]
    cases x with
    | refresh b =>
      obtain ⟨h1, h2⟩ := hg
      refine grows_run h b.length _ h2 ?_
      obtain ⟨f, o, c⟩ := s
      obtain ⟨ho, hf, hb⟩ := hi
      cases c with
      | true => exact ⟨fun o e => Nat.le_trans (ho o e) h1, fun b e => Nat.le_trans (hf b e) h1, hb⟩
      | false =>
        refine ⟨fun o e => Nat.le_trans (ho o e) h1, fun b' e => ?_, fun o b' e e' => ?_⟩
        · cases e
          exact Nat.le_refl _
        · cases e'
          exact Nat.le_trans (ho o e) h1
    | upload stop =>
      refine grows_run h n _ hg ?_
      obtain ⟨f, o, c⟩ := s
      have hi' := hi
      obtain ⟨ho, hf, hb⟩ := hi
      cases c with
      | true => exact hi'
      | false =>
        cases f with
        | none => cases stop <;> exact hi'
        | some b =>
          have key : ∀ k c', Small n ⟨some b, some (mock_upload o b k), c'⟩ := by
            intro k c'
            have hk := over_small (b := b) k (fun o e => hb o b e rfl)
            refine ⟨fun o e => ?_, hf, fun o b' e e' => ?_⟩
            · cases e
              exact Nat.le_trans hk (hf b rfl)
            · cases e
              cases e'
              exact hk
          cases stop with
          | none => exact key _ _
          | some t =>
            cases t with
            | before => exact hi'
            | during k => exact key _ _
            | after => exact key _ _
    | dropLocal =>
      refine grows_run h n _ hg ⟨hi.object, fun b e => ?_, fun o b e e' => ?_⟩
      · cases e
      · cases e'
    | dropCloud e =>
      refine grows_run h n _ hg ?_
      obtain ⟨f, o, c⟩ := s
      have hi' := hi
      obtain ⟨ho, hf, hb⟩ := hi
      cases c with
      | false => exact hi'
      | true =>
        cases e with
        | true => exact ⟨ho, hf, hb⟩
        | false => exact ⟨fun o e => (by cases e), hf, fun o b e => (by cases e)⟩
    | download =>
      refine grows_run h n _ hg ?_
      obtain ⟨f, o, c⟩ := s
      have hi' := hi
      obtain ⟨ho, hf, hb⟩ := hi
      cases f with
      | some b => exact hi'
      | none =>
        cases o with
        | none => exact hi'
        | some o =>
          cases c with
          | false => exact hi'
          | true =>
            refine ⟨ho, fun b e => ?_, fun o' b e e' => ?_⟩
            · cases e
              exact ho _ rfl
            · cases e
              cases e'
              exact Nat.le_refl _

/-- Partial: it holds, whatever stopped, if files never get shorter by a refresh.
Missing: see C96_false. -/
theorem C96_grows_partial (h : List Mock.Step) (b : Bytes) (hg : Grows 0 h)
    (hf : (Mock.run {} h).file = some b) (hc : (Mock.run {} h).cloud = false) :
    (Mock.run {} (h ++ [.upload none, .dropLocal, .download])).file = some b := by
  rw [C96_exact h b hf hc]
  obtain ⟨m, hs⟩ := grows_run h 0 {} hg ⟨fun o e => (by cases e), fun o e => (by cases e), fun o b e => (by cases e)⟩
  exact fun o ho => hs.both o b ho hf

/-- Partial: with the limits of C15 and one of the two conditions above, the events are
read from the downloaded file after a restart.  Missing: see C96_false_deleted_returns. -/
theorem C96_reads_partial (cs : Io.Codecs) (mc : MemCmp) (s : Io.WriterSource) (a : Io.IndexWriter.StopArg) (ms : List Io.EventMem)
    (hwf : ∀ m ∈ ms, Io.WF m.event) (ha : Io.ArgWF s a) (he : C15.EncryptionWorks cs s)
    (ht : C15.total ms ≤ 536870912) (hn : 52 * ms.length ≤ 536870912) (hr : C15.Roomy ms) :
    ∃ w, Io.writeFile cs s a ms = .ok w ∧
      (w.file.length < 4294967296 → C15.NoGrowth cs s ms w.index_writer.data →
        ∀ h, Undisturbed h ∨ Grows 0 h → (Mock.run {} h).file = some w.file → (Mock.run {} h).cloud = false →
          ∃ file, (Mock.run {} (h ++ [.upload none, .dropLocal, .download])).file = some file ∧
            Io.Reads cs mc file (ms.map (·.event))) := by
  obtain ⟨w, h1, h2⟩ := C15.C15_round_trip_partial cs mc s a ms hwf ha he ht hn hr
  refine ⟨w, h1, fun hl hg h hd hf hc => ⟨w.file, ?_, h2 hl hg⟩⟩
  rcases hd with hd | hd
  · exact C96_undisturbed_partial h _ hd hf hc
  · exact C96_grows_partial h _ hd hf hc

/-! Witnesses with the files of C55: events 1, 5 and 9, then 5 and 9 are deleted. -/

/-- The first upload wrote everything and failed then, or the process ended. -/
def again : List Mock.Step := [.refresh (fileOf before), .upload (some .after), .refresh (fileOf after)]

/-- The process ended while the partition was removed from the cloud. -/
def removed : List Mock.Step := [.refresh (fileOf before), .upload none, .dropCloud true, .refresh (fileOf after)]

/-- The first upload stopped before the last byte. -/
def torn : List Mock.Step := [.refresh (fileOf before), .upload (some (.during 300)), .refresh (fileOf after)]

set_option maxRecDepth 100000 in
/-- A partition that is uploaded, dropped locally and downloaded has the deleted event 9
again after a restart. -/
theorem C96_false_deleted_returns :
    firstFrom (Mock.run {} (again ++ [.upload none, .dropLocal, .download])).file 9 = some ⟨9, 0, [], [3, 3]⟩ ∧
    firstFrom (Mock.run {} (removed ++ [.upload none, .dropLocal, .download])).file 9 = some ⟨9, 0, [], [3, 3]⟩ := by decide +kernel

set_option maxRecDepth 100000 in
/-- The downloaded file cannot be opened. -/
theorem C96_false_lost :
    (match (Mock.run {} (torn ++ [.upload none, .dropLocal, .download])).file with
      | some b => match Io.part_open cs b with
        | .err _ => true
        | _ => false
      | none => false) = true := by decide +kernel

/-- The claim does not hold of the code. -/
theorem C96_false : ¬ Full := by
  intro h
  have := h [.refresh [1, 2], .upload (some .after), .refresh [3]] [3] rfl rfl
  revert this
  decide

/-- A history that meets the hypotheses of C96_undisturbed_partial, with an upload that
failed at once, and of C96_exact and C96_prefix. -/
example :
    let h : List Mock.Step := [.refresh [1, 2, 3], .upload none, .dropLocal, .download, .dropCloud false, .refresh [4], .upload (some .before)]
    Undisturbed h ∧ (Mock.run {} h).file = some [4] ∧ (Mock.run {} h).cloud = false ∧
      (Mock.run {} (h ++ [.upload none, .dropLocal, .download])).file = some [4] :=
  ⟨by unfold Undisturbed; simp, by decide, by decide, by decide⟩

/-- A history that meets the hypotheses of C96_grows_partial and not those of
C96_undisturbed_partial. -/
example :
    let h : List Mock.Step := [.refresh [1], .upload (some .after), .refresh [2, 3], .upload (some (.during 1)), .upload none,
      .dropCloud true, .refresh [5, 5]]
    Grows 0 h ∧ ¬ Undisturbed h ∧ (Mock.run {} h).file = some [5, 5] ∧ (Mock.run {} h).cloud = false ∧
      (Mock.run {} h).object = some [2, 3] :=
  ⟨by simp [Grows], by unfold Undisturbed; simp, by decide, by decide, by decide⟩

/-- A region of a file uploaded over a longer one; C96_kept for a refresh that is refused. -/
example : (Mock.step ⟨some [7, 8], some [1, 2, 3], false⟩ (.upload none)).object = some [7, 8, 3] ∧
    mock_read [7, 8, 3] 1 1 = .ok [8] ∧
    Mock.step ⟨some [7, 8], some [7, 8, 3], true⟩ (.refresh [9]) = ⟨some [7, 8], some [7, 8, 3], true⟩ := by decide

set_option maxRecDepth 100000 in
/-- The limits of C96_reads_partial: the file with events 1, 5 and 9 over the remains of
the shorter one. -/
example : (∀ m ∈ before, Io.WF m.event) ∧ Io.ArgWF src arg ∧ C15.EncryptionWorks cs src ∧ C15.total before ≤ 536870912 ∧
    C15.Roomy before ∧ Grows 0 [.refresh (fileOf after), .upload (some .after), .refresh (fileOf before)] ∧
    (Mock.run {} [.refresh (fileOf after), .upload (some .after), .refresh (fileOf before)]).file = some (fileOf before) :=
  ⟨by unfold Io.WF; decide +kernel, by simp [Io.ArgWF, arg, src], by intro e he; simp [src] at he, by decide +kernel,
    by unfold C15.Roomy; decide +kernel, ⟨Nat.zero_le _, by decide +kernel, trivial⟩, rfl⟩

end Verif.C96
