import Verif.Proofs.C41
import Verif.Model.Storage

/-! C41: a partition always keeps a readable copy. -/
namespace Verif.C41
open Files C27

/-- C41 for errors: histories of operations that succeed or fail, where a copy is
dropped only if there is another, a refresh fails before its file is put in place,
and the last operation may be a refresh that fails - or stands - at any step.  Any
error of an upload or download is included.  After them what is read is a version
written in full.  Missing from C41 in full: crashes (`C41_crashes_partial`), and
the errors and drops shown wrong below. -/
theorem C41_errors_partial (order : List Nat) (h : List Event) (ha : All order (Gentle Mild) start h) (e : Event) (w : World) (v : Nat)
    (hw : run order start h = some w) (hr : Readable w v) (hg : Gentle Late w e) :
    ∃ w' v', step order w e = some w' ∧ Readable w' v' := by
  obtain ⟨w2, v2, h2, hk⟩ := gentle_run h start_kept ha
  rw [h2] at hw
  cases hw
  have := readable_kept hr hk
  subst this
  exact late_step hk e hg

/-- C41 for crashes: histories without errors, crashes and restarts at any step,
where a copy is dropped only if there is another. -/
theorem C41_crashes_partial (order : List Nat) (hn : order.Nodup) (h : List Event) (hk : ∀ e ∈ h, Known order e) (he : ∀ e ∈ h, NoError e)
    (e : Event) (hke : Known order e) (w : World) (v : Nat) (hw : run order start h = some w) (hr : Readable w v) (hc : Crashing w e) :
    ∃ w' v', step order w e = some w' ∧ Readable w' v' := by
  obtain ⟨w2, v2, h2, hrest⟩ := run_rest hn h (start_rest order) hk he
  rw [h2] at hw
  cases hw
  have hs := rest_stored hrest
  obtain ⟨b, hb, _, _⟩ := hr
  unfold Stored at hs
  rw [hb] at hs
  cases v2 with
  | none => cases hs
  | some v2 => exact crashing_step hn hrest e hke hc

/-- A failed upload, then a good one; a failed drop in the cloud; the local copy
dropped; a failed download, then a good one; the cloud copy dropped; failed
refreshes on the same and to another storage. -/
def goodHistory : List Event :=
  [.done (.create 0), .done (.refresh none 1 false), .error .upload 4, .done .upload, .error (.drop true false) 1, .done (.drop false true),
   .error .download 2, .done .download, .done (.drop true false), .error (.refresh none 2 true) 1, .error (.refresh (some 1) 2 true) 2]

/-- All the events of a list are as wanted, and so is the result. -/
def check (order : List Nat) (P : World → Event → Bool) : World → List Event → Bool
  | _, [] => true
  | w, e :: l => P w e && match step order w e with
    | none => true
    | some w => check order P w l

theorem check_sound {order : List Nat} {P : World → Event → Bool} {Q : World → Event → Prop} (hp : ∀ w e, P w e = true → Q w e) :
    ∀ (l : List Event) (w : World), check order P w l = true → All order Q w l
  | [], _, _ => trivial
  | e :: l, w, h => by
    simp only [check, Bool.and_eq_true] at h
    refine ⟨hp w e h.1, ?_⟩
    intro w' hw
    rw [hw] at h
    exact check_sound hp l w' h.2

def carefulB (m : Option Mem) : Op → Bool
  | .drop true true => false
  | .drop true false => match m with | some x => x.id | none => false
  | .drop false true => match m with | some x => x.cloud | none => false
  | _ => true

def mildB (o : Op) (n : Nat) : Bool :=
  match o with
  | .refresh _ _ _ => n ≤ 2
  | .drop true _ => n ≤ 1
  | .drop false true => n = 0
  | _ => true

theorem carefulB_sound (m : Option Mem) (o : Op) (h : carefulB m o = true) : Careful m o := by
  unfold carefulB at h
  unfold Careful
  split at h <;> simp_all
  · split at h <;> simp_all
  · split at h <;> simp_all

theorem gentle_sound (w : World) (e : Event)
    (h : (match e with | .done o => carefulB w.mem o | .error o n => carefulB w.mem o && mildB o n | _ => false) = true) : Gentle Mild w e := by
  cases e with
  | done o => exact carefulB_sound _ _ h
  | error o n =>
    simp only [Bool.and_eq_true] at h
    refine ⟨carefulB_sound _ _ h.1, ?_⟩
    have h2 := h.2
    unfold mildB at h2
    unfold Mild
    split at h2 <;> simp_all
  | crash o n r => cases h
  | restart r => cases h

example : All [0, 1] (Gentle Mild) start goodHistory ∧
    ∃ w, run [0, 1] start goodHistory = some w ∧ Readable w 1 ∧ Gentle Late w (.error (.refresh (some 1) 2 true) 4) :=
  ⟨check_sound gentle_sound _ _ (by decide +kernel), _, rfl, ⟨_, rfl, rfl, rfl⟩, trivial, trivial⟩

/-- Crashes: a history with a copy in the cloud only. -/
example : ∃ w, run [0, 1] start [.done (.create 0), .done (.refresh none 1 false), .crash .upload 6 [0], .done (.drop false true)] = some w ∧
    Readable w 1 ∧ Crashing w (.crash .download 4 []) :=
  ⟨_, rfl, ⟨_, rfl, rfl, rfl⟩, trivial⟩

/-! What goes wrong. -/

/-- DROP PARTITION ... ON STORAGE of a partition that has no copy in the cloud
removes the only copy. -/
theorem C41_false_drop :
    ∃ w, run [0] start [.done (.create 0), .done (.refresh none 1 false)] = some w ∧ Readable w 1 ∧
      ∃ w', step [0] w (.done (.drop false true)) = some w' ∧ ∀ v, ¬ Readable w' v :=
  ⟨_, rfl, ⟨_, rfl, rfl, rfl⟩, _, rfl, fun v ⟨b, hb, _⟩ => by cases hb⟩

/-- A refresh fails when it is to rename the new file, which is in use by then;
the next refresh writes into that very file, and fails: nothing in full is left
open, though the old file is still in its place. -/
theorem C41_false_refresh :
    ∃ w, run [0] start [.done (.create 0), .done (.refresh none 1 false), .error (.refresh none 2 false) 3] = some w ∧ Readable w 2 ∧
      ∃ w', step [0] w (.error (.refresh none 3 false) 1) = some w' ∧ ∀ v, ¬ Readable w' v := by
  refine ⟨_, rfl, ⟨_, rfl, rfl, rfl⟩, _, rfl, ?_⟩
  rintro v ⟨b, hb, hw, _⟩
  cases hb
  cases hw

/-- The file cannot be unlinked by DROP ... ON STORAGE: it has been closed, the
copy in the cloud is not read either. -/
theorem C41_false_closed :
    ∃ w, run [0] start [.done (.create 0), .done (.refresh none 1 false), .done .upload] = some w ∧ Readable w 1 ∧
      ∃ w', step [0] w (.error (.drop false true) 1) = some w' ∧ ∀ v, ¬ Readable w' v :=
  ⟨_, rfl, ⟨_, rfl, rfl, rfl⟩, _, rfl, fun v ⟨b, hb, _⟩ => by cases hb⟩

/-- The object is removed but the answer is lost: the partition still counts as
being in the cloud, and dropping the local copy - careful as it is - loses it. -/
theorem C41_false_answer :
    ∃ w, run [0] start [.done (.create 0), .done (.refresh none 1 false), .done .upload, .error (.drop true false) 2] = some w ∧ Readable w 1 ∧
      Careful w.mem (.drop false true) ∧ ∃ w', step [0] w (.done (.drop false true)) = some w' ∧ ∀ v, ¬ Readable w' v :=
  ⟨_, rfl, ⟨_, rfl, rfl, rfl⟩, ⟨_, rfl, rfl⟩, _, rfl, fun v ⟨b, hb, _⟩ => by cases hb⟩

/-- The object could not be removed, but the file that stands for it is: after
dropping the local copy a restart finds nothing. -/
theorem C41_false_restart :
    ∃ w, run [0] start [.done (.create 0), .done (.refresh none 1 false), .done .upload, .error (.drop true false) 1, .done (.drop false true)] =
        some w ∧ Readable w 1 ∧ ∃ w', step [0] w (.restart []) = some w' ∧ ∀ v, ¬ Readable w' v :=
  ⟨_, rfl, ⟨_, rfl, rfl, rfl⟩, _, rfl, fun v ⟨b, hb, _⟩ => by cases hb⟩

theorem C41_false : ¬ Full := by
  intro hf
  obtain ⟨w, hw, hr, w', hs, hn⟩ := C41_false_drop
  obtain ⟨x, v, hx, hv⟩ := hf [0] (by decide) [.done (.create 0), .done (.refresh none 1 false)]
    (by intro e he; simp at he; rcases he with rfl | rfl <;> simp [Known, C27.Exists, Keeps, opOf])
    (.done (.drop false true)) trivial (by simp [Keeps, opOf]) w 1 hw hr
  rw [hs] at hx
  cases hx
  exact hn v hv

/-! ### The operations of the engine on the states of partitions (Model/Storage.lean) -/

theorem mem_set {db : Sto.Db} {uid : Nat} {p : Sto.Part} {g : Sto.Storage → Sto.Storage} (hg : ∀ s, (g s).parts = s.parts)
    {s' : Sto.Storage} {q : Sto.Part} (hs : s' ∈ (Sto.onStorage db uid fun s => Sto.setPart (g s) p).storages) (hq : q ∈ s'.parts) :
    (∃ s ∈ db.storages, q ∈ s.parts) ∨ q = p := by
  unfold Sto.onStorage at hs
  obtain ⟨s, hm, rfl⟩ := List.mem_map.1 hs
  split at hq
  · simp only [Sto.setPart, hg] at hq
    obtain ⟨r, hr, e⟩ := List.mem_map.1 hq
    split at e
    · exact .inr e.symm
    · exact .inl ⟨s, hm, e ▸ hr⟩
  · exact .inl ⟨s, hm, hq⟩

/-- The automatic drop of a local file (cloud_drop_local) leaves every partition as it
was or with a copy in the cloud, whatever fails. -/
theorem C41_automatic (db : Sto.Db) (min : Nat) (failCloud failLocal : Bool) :
    ∀ s ∈ (Sto.dropFile db min true false true failCloud failLocal).storages, ∀ q ∈ s.parts,
      (∃ s ∈ db.storages, q ∈ s.parts) ∨ q.state.cloud = true := by
  intro s hs q hq
  unfold Sto.dropFile at hs
  split at hs
  · exact .inl ⟨s, hs, hq⟩
  · rename_i t p _
    obtain ⟨pmin, ⟨i1, i2, i3, cloud, i5⟩, psize, pevents, ptime, prefresh⟩ := p
    cases cloud with
    | false =>
      rw [if_pos (by simp)] at hs
      exact .inl ⟨s, hs, hq⟩
    | true =>
      have key : ∀ r : Sto.Part, r.state.cloud = true → s ∈ (Sto.onStorage db t.uid fun s => Sto.setPart s r).storages →
          (∃ s ∈ db.storages, q ∈ s.parts) ∨ q.state.cloud = true := by
        intro r hr hs
        rcases mem_set (g := id) (fun _ => rfl) hs hq with h | rfl
        · exact .inl h
        · exact .inr hr
      split at hs
      · exact .inl ⟨s, hs, hq⟩
      · cases i1 <;> cases failLocal <;>
          simp [Sto.State.isNone] at hs <;> exact key _ (by rfl) hs

/-- An upload leaves every partition as it was or with both copies. -/
theorem C41_uploaded (db : Sto.Db) (min : Nat) (fails : Bool) :
    ∀ s ∈ (Sto.upload db min fails).storages, ∀ q ∈ s.parts,
      (∃ s ∈ db.storages, q ∈ s.parts) ∨ (fails = false ∧ q.state.id = true ∧ q.state.cloud = true) := by
  intro s hs q hq
  unfold Sto.upload at hs
  split at hs
  · exact .inl ⟨s, hs, hq⟩
  · split at hs
    · exact .inl ⟨s, hs, hq⟩
    · rename_i h
      rcases mem_set (g := id) (fun _ => rfl) hs hq with h' | rfl
      · exact .inl h'
      · refine .inr ?_
        simp only [Bool.or_eq_true, Bool.not_eq_true', not_or, Bool.not_eq_true, Bool.not_eq_false] at h
        exact ⟨h.2, h.1.2, rfl⟩

/-- A storage with a cloud and one partition. -/
def db1 : Sto.Db :=
  { clouds := [{ uid := 1, name := [99] }],
    storages := [{ uid := 2, name := [115], cloudName := [99], cloudDropLocal := true, cloud := some 1,
                   parts := [{ min := 10, state := { id := true }, size := 5, events := 1 }] }] }

example : (Sto.dropFile db1 10 true false true false false) = db1 ∧
    ((Sto.upload db1 10 false).storages.map fun s => s.parts.map (·.state)) = [[{ id := true, cloud := true }]] ∧
    ((Sto.dropFile (Sto.upload db1 10 false) 10 true false true false false).storages.map fun s => s.parts.map (·.state)) =
      [[{ cloud := true }]] := by decide

end Verif.C41
