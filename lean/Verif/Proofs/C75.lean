import Verif.Spec.C75
import Verif.Proofs.PartOpen
import Verif.Proofs.PartScan

/-! Proofs for C75. -/
namespace Verif.C75
open Io Cold

/-- A file `F`, its cloud file `M`, its index `I` and its index data `D`. -/
structure Base (cs : Codecs) (F M : Bytes) (I : Index) (D : Bytes) : Prop where
  openF : index_open false F = .ok I
  readF : index_read cs F I = .ok D
  dump : cloudDump F = .ok M
  openM : index_open true M = .ok I
  readM : index_read cs M I = .ok D
  foot : F.drop (F.length - 130) = I.bytes
  at_ : Index.at_ I.bytes = .ok I
  len : 130 ≤ F.length
  check : index_check false F.length I.bytes I = none

theorem foot_drop (pre out : Bytes) (i : Index) :
    (pre ++ (out ++ i.bytes)).drop ((pre ++ (out ++ i.bytes)).length - 130) = i.bytes := by
  have h := index_length i
  rw [← List.append_assoc]
  have : (pre ++ out ++ i.bytes).length - 130 = (pre ++ out).length := by
    rw [List.length_append, h]; omega
  rw [this, List.drop_left' rfl]

theorem pread_foot (pre out : Bytes) (i : Index) :
    pread (pre ++ (out ++ i.bytes)) 130 ((pre ++ (out ++ i.bytes)).length - 130) = .ok i.bytes := by
  have h := index_length i
  unfold pread
  rw [if_neg (by simp only [List.length_append]; omega), foot_drop, ← h, List.take_length]

theorem open_footer {pre out : Bytes} {i : Index} (hf : Footer (pre ++ (out ++ i.bytes)) pre out i) (cloud : Bool)
    (hp : cloud = true → pre = []) : index_open cloud (pre ++ (out ++ i.bytes)) = .ok i := by
  have h := index_length i
  have hl : (pre ++ (out ++ i.bytes)).length = pre.length + out.length + 130 := by
    simp only [List.length_append]; omega
  unfold index_open
  rw [if_neg (by omega), pread_foot]
  simp only [Res.bind_ok]
  have hat := index_at hf.wf []
  rw [List.append_nil] at hat
  rw [hat]
  simp only [Res.bind_ok]
  have hd : i.bytes.drop 4 = i.tailBytes := by
    unfold Index.bytes; rw [List.drop_left' (le_length 4 _)]
  rw [hd, if_neg (by rw [hf.magic]; simp), if_neg (by rw [hf.crc]; simp), if_neg, if_neg (by rw [hf.version]; simp)]
  rw [hl]
  cases cloud with
  | false => simp only [Bool.false_eq_true, if_false]; rw [hf.size_total]; simp
  | true => rw [hp rfl]; simp only [if_true]; rw [hf.size]; simp

theorem pread_data {pre out : Bytes} {i : Index} (hs : i.size = out.length) (h0 : i.size ≠ 0) :
    pread (pre ++ (out ++ i.bytes)) i.size ((pre ++ (out ++ i.bytes)).length - (130 + i.size)) = .ok out := by
  have h := index_length i
  have hl : (pre ++ (out ++ i.bytes)).length - (130 + i.size) = pre.length := by
    simp only [List.length_append]; omega
  rw [hl, hs]
  have := @pread_ok pre out i.bytes (by intro e; rw [e] at hs; exact h0 hs)
  rw [List.append_assoc] at this
  exact this

theorem read_footer (cs : Codecs) {pre pre' out : Bytes} {i : Index} (hs : i.size = out.length) :
    index_read cs (pre ++ (out ++ i.bytes)) i = index_read cs (pre' ++ (out ++ i.bytes)) i := by
  have h := index_length i
  unfold index_read
  by_cases h0 : i.size = 0
  · rw [if_pos h0, if_pos h0]
  · rw [if_neg h0, if_neg h0, if_neg (by simp only [List.length_append]; omega), if_neg (by simp only [List.length_append]; omega),
      pread_data hs h0, pread_data hs h0]

theorem flat_events (es : List Ent) :
    (es.map fun e => e.ms.map (·.event)).flatten = (es.flatMap (·.ms)).map (·.event) := by
  induction es with
  | nil => rfl
  | cons e es ih => simp only [List.map_cons, List.flatten_cons, ih, List.flatMap_cons, List.map_append]

theorem base_of {cs : Codecs} {src : WriterSource} {a : IndexWriter.StopArg} {ms : List EventMem} {w : Writer}
    (hw : Written cs src a ms w) :
    ∃ M, Base cs w.file M w.index_writer.index w.index_writer.data ∧
      part_open cs w.file = .ok ⟨w.file, w.index_writer.index, w.index_writer.data⟩ ∧
      ∃ rs : List (List Event), rs.flatten = ms.map (·.event) ∧
        Rep cs ⟨w.file, w.index_writer.index, w.index_writer.data⟩ rs := by
  obtain ⟨es, p, h1, _, h3, h4, _, h6, _, ⟨h8, out, hf⟩, _, hrep⟩ := written_open hw.done hw.events hw.small hw.arg hw.room.1 hw.room.2
  have hp : p = ⟨w.file, w.index_writer.index, w.index_writer.data⟩ := by
    cases p; simp only at h4 h6 h8; subst h4; subst h6; subst h8; rfl
  rw [hp] at h3 hf hrep
  have h := index_length w.index_writer.index
  have hF := hf.file
  have hfF : Footer (fileOf es ++ (out ++ w.index_writer.index.bytes)) (fileOf es) out w.index_writer.index := hF ▸ hf
  have hfM : index_open true ([] ++ (out ++ w.index_writer.index.bytes)) = .ok w.index_writer.index := by
    have hl : ([] ++ (out ++ w.index_writer.index.bytes)).length = out.length + 130 := by
      simp only [List.nil_append, List.length_append]; omega
    unfold index_open
    rw [if_neg (by omega), pread_foot]
    simp only [Res.bind_ok]
    have hat := index_at hf.wf []
    rw [List.append_nil] at hat
    simp only at hat
    rw [hat]
    simp only [Res.bind_ok]
    have hd : w.index_writer.index.bytes.drop 4 = w.index_writer.index.tailBytes := by
      unfold Index.bytes; rw [List.drop_left' (le_length 4 _)]
    have hm := hf.magic
    have hc := hf.crc
    have hs := hf.size
    have hv := hf.version
    simp only at hm hc hs hv
    rw [hd, if_neg (by rw [hm]; simp), if_neg (by rw [hc]; simp), if_neg (by rw [hl, hs]; simp),
      if_neg (by rw [hv]; simp)]
  have hop := open_footer hfF false (by intro e; cases e)
  rw [← hF] at hop
  have hrd : index_read cs w.file w.index_writer.index = .ok w.index_writer.data := by
    have h3' := h3
    unfold part_open at h3'
    rw [hop] at h3'
    simp only [Res.bind_ok] at h3'
    obtain ⟨d, g1, g2⟩ := Res.bind_eq_ok.1 h3'
    have g2 := Res.ok.inj g2
    simp only [PartFile.mk.injEq, true_and] at g2
    rw [← g2]; exact g1
  have hs : w.index_writer.index.size = out.length := hf.size
  have hlen : w.file.length = (fileOf es).length + out.length + 130 := by
    rw [hF]; simp only [List.length_append]; omega
  have hfoot : w.file.drop (w.file.length - 130) = w.index_writer.index.bytes := by
    rw [hF]; exact foot_drop _ _ _
  have hat : Index.at_ w.index_writer.index.bytes = .ok w.index_writer.index := by
    have hat := index_at hf.wf []
    rw [List.append_nil] at hat
    exact hat
  have hd : w.index_writer.index.bytes.drop 4 = w.index_writer.index.tailBytes := by
    unfold Index.bytes; rw [List.drop_left' (le_length 4 _)]
  refine ⟨out ++ w.index_writer.index.bytes, ⟨hop, hrd, ?_, hfM, ?_, hfoot, hat, by omega, ?_⟩, h3, _, ?_, hrep⟩
  · unfold cloudDump
    rw [hop]
    simp only [Res.bind_ok]
    rw [hfoot]
    by_cases h0 : w.index_writer.index.size = 0
    · rw [if_pos h0]
      have : out = [] := List.eq_nil_of_length_eq_zero (by omega)
      rw [this]; rfl
    · rw [if_neg h0, if_neg (by omega)]
      have := @pread_data (fileOf es) out w.index_writer.index hs h0
      rw [← hF] at this
      rw [this]
      simp only [Res.bind_ok]
      have hcd : w.index_writer.index.crc_data = (Crc.crc32_hw 0#32 out).toNat := hf.crc_data
      rw [if_neg (by rw [hcd]; simp)]
  · rw [← hrd]
    conv => rhs; rw [hF]
    exact @read_footer cs [] (fileOf es) out _ hs
  · unfold index_check
    have hm := hf.magic
    have hc := hf.crc
    have hst := hf.size_total
    have hv := hf.version
    simp only at hm hc hst hv
    rw [hd, if_neg (by rw [hm]; simp), if_neg (by rw [hc]; simp), if_neg (by rw [hlen, hst]; simp),
      if_neg (by rw [hv]; simp)]
  · rw [← h1]
    exact flat_events es

/-- What holds after every fair operation. -/
structure Inv (F M : Bytes) (I : Index) (D : Bytes) (s : State) : Prop where
  index : s.index = I
  data : s.index_data = D
  file : s.file = none ∨ s.file = some F
  object : s.object = none ∨ s.object = some F
  cloudFile : s.cloudFile = none ∨ (s.cloudFile = some M ∧ s.object = some F)
  id : s.id = true → s.file = some F ∧ s.fd = some F ∧ s.incomplete = none
  away : s.id = false → s.cloud = true ∧ s.cloudFile = some M ∧ s.cloudIncomplete = none
  local_ : s.cloud = false → s.cloudFile = none
  pending : s.cloudIncomplete.isSome = true → s.cloudFile = none

theorem open_file_ok {cs : Codecs} {F M : Bytes} {I : Index} {D : Bytes} (hb : Base cs F M I D) {s : State} (hi : s.index = I)
    (fault : Option OpenFault) :
    ∃ fd lost e, part_open_file s F fault = .ok ({ s with fd, lost }, e) ∧ (fault = none → e = none ∧ fd = some F) ∧
      (s.fd = none → lost = s.lost) ∧ (fault ≠ none → e ≠ none) := by
  unfold part_open_file
  have hl := index_length I
  cases fault with
  | none =>
    refine ⟨some F, if s.fd.isSome then s.lost + 1 else s.lost, none, ?_, fun _ => ⟨rfl, rfl⟩, fun h => (by rw [h]; rfl), fun h => absurd rfl h⟩
    rw [if_neg (by simp)]
    simp only
    rw [if_neg (by have := hb.len; omega), hb.foot, hb.at_]
    simp only [Res.bind_ok, hb.check]
    rw [← hi]
  | some f =>
    cases f with
    | «open» =>
      rw [if_pos rfl]
      exact ⟨_, _, _, rfl, fun h => (by cases h), fun h => (by rw [h]; rfl), fun _ => by simp⟩
    | read n =>
      refine ⟨some F, if s.fd.isSome then s.lost + 1 else s.lost, some "file: pread error", ?_, fun h => (by cases h), fun h => (by rw [h]; rfl), fun _ => by simp⟩
      rw [if_neg (by simp)]
      simp only
      rw [if_neg (by have := hb.len; omega), hb.foot, hi, List.take_append_drop, hb.at_]
      simp only [Res.bind_ok, ← hi]

theorem validate_ok {s : State}
    (h : (s.file.isSome = true ∧ s.incomplete = none ∧ (s.cloudFile = none ∨ s.cloudIncomplete = none)) ∨
      (s.cloudFile.isSome = true ∧ s.cloudIncomplete = none ∧ ¬ (s.file.isSome = true ∧ s.incomplete.isSome = true))) :
    validate s = .ok { s with incomplete := none, cloudIncomplete := none } := by
  obtain ⟨file, inc, cf, ci, _, _, _, _, _, _, _⟩ := s
  cases file <;> cases inc <;> cases cf <;> cases ci <;> simp_all [validate]

theorem inv_step {cs : Codecs} {F M : Bytes} {I : Index} {D : Bytes} (hb : Base cs F M I D) {s : State} (h : Inv F M I D s) {o : Op}
    (hf : Fair s o) : ∃ s' e, step cs s o = .ok (s', e) ∧ Inv F M I D s' := by
  cases o with
  | upload f =>
    show ∃ s' e, upload s f = _ ∧ _
    unfold upload
    split
    · exact ⟨_, _, rfl, h⟩
    · rename_i hc
      have hc : s.cloud = false := by simpa using hc
      split
      · exact ⟨_, _, rfl, h⟩
      · rename_i hid
        have hid : s.id = true := by simpa using hid
        obtain ⟨g1, g2, g3⟩ := h.id hid
        have g4 := h.local_ hc
        simp only [g1, hb.dump]
        have hk := h.object
        have hi := h.index
        have hd := h.data
        split
        · exact ⟨_, _, rfl, ⟨hi, hd, .inr rfl, hk, .inl g4, fun _ => ⟨rfl, g2, g3⟩, fun e => (by rw [hid] at e; cases e), fun _ => g4, fun _ => g4⟩⟩
        · exact ⟨_, _, rfl, ⟨hi, hd, .inr rfl, hk, .inl g4, fun _ => ⟨rfl, g2, g3⟩, fun e => (by rw [hid] at e; cases e), fun _ => g4, fun _ => g4⟩⟩
        · exact ⟨_, _, rfl, ⟨hi, hd, .inr rfl, .inr rfl, .inl g4, fun _ => ⟨rfl, g2, g3⟩, fun e => (by rw [hid] at e; cases e), fun _ => g4, fun _ => g4⟩⟩
        · exact ⟨_, _, rfl, ⟨hi, hd, .inr rfl, .inr rfl, .inl g4, fun _ => ⟨rfl, g2, g3⟩, fun e => (by rw [hid] at e; cases e), fun _ => g4, fun _ => g4⟩⟩
        · exact ⟨_, _, rfl, ⟨hi, hd, .inr rfl, .inr rfl, .inr ⟨rfl, rfl⟩, fun _ => ⟨rfl, g2, g3⟩, fun e => (by rw [hid] at e; cases e), fun e => (by cases e), fun e => by cases e⟩⟩
  | download got f =>
    show ∃ s' e, download s got f = _ ∧ _
    unfold download
    split
    · exact ⟨_, _, rfl, h⟩
    · rename_i hid
      have hid : s.id = false := by simpa using hid
      obtain ⟨g1, g2, g3⟩ := h.away hid
      rw [if_neg (by rw [g1]; simp)]
      have ho : s.object = some F := by
        rcases h.cloudFile with e | e
        · rw [e] at g2; cases g2
        · exact e.2
      have hg : got = F := hf F ho
      subst hg
      split
      · rename_i e; rw [ho] at e; cases e
      have hi := h.index
      have hd := h.data
      have hnid : ∀ P : Prop, s.id = true → P := fun P e => by rw [hid] at e; cases e
      have hpen := h.pending
      split
      · exact ⟨_, _, rfl, ⟨hi, hd, h.file, .inr ho, .inr ⟨g2, ho⟩, hnid _, fun _ => ⟨g1, g2, g3⟩, h.local_, hpen⟩⟩
      · exact ⟨_, _, rfl, ⟨hi, hd, h.file, .inr ho, .inr ⟨g2, ho⟩, hnid _, fun _ => ⟨g1, g2, g3⟩, h.local_, hpen⟩⟩
      · rename_i f'
        obtain ⟨fd, lost, e, k1, _, _, _⟩ := open_file_ok (s := { s with file := some got, incomplete := none }) hb hi (some f')
        exact ⟨_, _, k1, ⟨hi, hd, .inr rfl, .inr ho, .inr ⟨g2, ho⟩, hnid _, fun _ => ⟨g1, g2, g3⟩, h.local_, hpen⟩⟩
      · obtain ⟨fd, lost, e, k1, k2, _, _⟩ := open_file_ok (s := { s with file := some got, incomplete := none }) hb hi none
        rw [k1]
        obtain ⟨k3, k4⟩ := k2 rfl
        subst k3
        simp only [Res.bind_ok]
        exact ⟨_, _, rfl, ⟨hi, hd, .inr rfl, .inr ho, .inr ⟨g2, ho⟩, fun _ => ⟨rfl, k4, rfl⟩, fun e => (by cases e), h.local_, hpen⟩⟩
  | dropLocal fail =>
    obtain ⟨h1, h2, h3, h4⟩ := hf
    refine ⟨(dropLocal s fail).1, (dropLocal s fail).2, rfl, ?_⟩
    have hM : s.cloudFile = some M ∧ s.object = some F := by
      rcases h.cloudFile with e | e
      · rw [e] at h3; cases h3
      · exact e
    unfold dropLocal
    split
    · unfold dropped
      rw [if_neg (by rw [h2]; simp)]
      exact h
    · rw [if_neg (by rw [h1]; simp)]
      unfold dropped
      rw [if_neg (by simp only [h2]; simp)]
      have hp : s.cloudIncomplete = none := by
        cases e : s.cloudIncomplete with
        | none => rfl
        | some x => have := h.pending (by rw [e]; rfl); rw [this] at hM; cases hM.1
      exact ⟨h.index, h.data, .inl rfl, h.object, h.cloudFile, fun e => (by cases e), fun _ => ⟨h2, hM.1, hp⟩, h.local_, h.pending⟩
  | dropCloud f =>
    have hf : s.id = true := hf
    obtain ⟨g1, g2, g3⟩ := h.id hf
    have hn : ∀ P : Prop, s.id = false → P := fun P e => by rw [hf] at e; cases e
    refine ⟨(dropCloud s f).1, (dropCloud s f).2, rfl, ?_⟩
    unfold dropCloud
    split
    · unfold dropped
      rw [if_neg (by rw [hf]; simp)]
      exact h
    · split
      · split
        · exact h
        · rename_i hcf
          have hcf : s.cloudFile = none := by
            cases e : s.cloudFile with
            | none => rfl
            | some x => rw [e] at hcf; exact absurd rfl hcf
          unfold dropped
          rw [if_neg (by intro k; exact hn _ k.1)]
          exact ⟨h.index, h.data, h.file, .inl rfl, .inl hcf, fun _ => ⟨g1, g2, g3⟩, hn _, fun _ => hcf, fun _ => hcf⟩
      · rename_i hc
        exact ⟨h.index, h.data, h.file, h.object, .inl rfl, fun _ => ⟨g1, g2, g3⟩, hn _, fun _ => rfl, fun _ => rfl⟩
      · exact ⟨h.index, h.data, h.file, .inl rfl, .inl rfl, fun _ => ⟨g1, g2, g3⟩, hn _, fun _ => rfl, fun _ => rfl⟩
      · unfold dropped
        rw [if_neg (by intro k; exact hn _ k.1)]
        exact ⟨h.index, h.data, h.file, .inl rfl, .inl rfl, fun _ => ⟨g1, g2, g3⟩, hn _, fun _ => rfl, fun _ => rfl⟩
  | restart =>
    show ∃ s' e, (restart cs s).bind _ = _ ∧ _
    have hv : validate s = .ok { s with incomplete := none, cloudIncomplete := none } := by
      apply validate_ok
      cases hid : s.id with
      | true =>
        obtain ⟨g1, g2, g3⟩ := h.id hid
        refine .inl ⟨by rw [g1]; rfl, g3, ?_⟩
        cases e2 : s.cloudIncomplete with
        | none => exact .inr rfl
        | some x => exact .inl (h.pending (by rw [e2]; rfl))
      | false =>
        obtain ⟨g1, g2, g3⟩ := h.away hid
        exact .inr ⟨by rw [g2]; rfl, g3, fun k => hf ⟨k.1, k.2, by rw [g2]; rfl⟩⟩
    unfold restart
    rw [hv]
    simp only [Res.bind_ok]
    rcases h.file with e | e
    · -- only the cloud file
      have hid : s.id = false := by
        cases hid : s.id with
        | false => rfl
        | true => rw [(h.id hid).1] at e; cases e
      obtain ⟨g1, g2, g3⟩ := h.away hid
      have ho : s.object = some F := by
        rcases h.cloudFile with e | e
        · rw [e] at g2; cases g2
        · exact e.2
      simp only [e, g2, hb.openM, Res.bind_ok, hb.readM]
      exact ⟨_, _, rfl, ⟨rfl, rfl, .inl rfl, .inr ho, .inr ⟨rfl, ho⟩, fun e => (by cases e), fun _ => ⟨rfl, rfl, rfl⟩, fun e => (by cases e), fun e => by cases e⟩⟩
    · simp only [e, hb.openF, Res.bind_ok, hb.readF]
      refine ⟨_, _, rfl, ⟨rfl, rfl, .inr rfl, h.object, h.cloudFile, fun _ => ⟨rfl, rfl, rfl⟩, fun e => (by cases e), ?_, fun e => by cases e⟩⟩
      intro e
      cases e2 : s.cloudFile with
      | none => rfl
      | some x => simp only [e2, Option.isSome_some] at e; cases e

theorem inv_run {cs : Codecs} {F M : Bytes} {I : Index} {D : Bytes} (hb : Base cs F M I D) :
    ∀ (l : List Op) {s : State}, Inv F M I D s → All cs Fair s l → ∃ s', run cs s l = .ok s' ∧ Inv F M I D s'
  | [], s, h, _ => ⟨s, rfl, h⟩
  | o :: l, s, h, ha => by
    obtain ⟨s', e, h1, h2⟩ := inv_step hb h ha.1
    obtain ⟨s2, h3, h4⟩ := inv_run hb l h2 (ha.2 s' e h1)
    refine ⟨s2, ?_, h4⟩
    simp only [run, h1, Res.bind_ok]
    exact h3

theorem inv_fresh {cs : Codecs} {M : Bytes} {w : Writer} (_ : Base cs w.file M w.index_writer.index w.index_writer.data) :
    Inv w.file M w.index_writer.index w.index_writer.data (fresh w) :=
  ⟨rfl, rfl, .inr rfl, .inl rfl, .inl rfl, fun _ => ⟨rfl, rfl, rfl⟩, fun e => (by cases e), fun _ => rfl, fun e => (by cases e)⟩

theorem inv_reading {F M : Bytes} {I : Index} {D : Bytes} {s : State} (h : Inv F M I D s) : reading s = .ok ⟨F, I, D⟩ := by
  unfold reading source
  cases hid : s.id with
  | true =>
    rw [if_pos rfl, (h.id hid).2.1]
    simp only [Res.bind_ok, h.index, h.data]
  | false =>
    obtain ⟨g1, g2, g3⟩ := h.away hid
    have ho : s.object = some F := by
      rcases h.cloudFile with e | e
      · rw [e] at g2; cases g2
      · exact e.2
    rw [if_neg (by simp), if_pos g1, ho]
    simp only [Res.bind_ok, h.index, h.data]

theorem quiet_step {cs : Codecs} {F M : Bytes} {I : Index} {D : Bytes} (hb : Base cs F M I D) {s : State} (h : Inv F M I D s)
    (h0 : s.lost = 0) (hfd : s.id = false → s.fd = none) {o : Op} (hf : Fair s o) (he : Early o) {s' : State} {e : Option String}
    (hs : step cs s o = .ok (s', e)) : s'.lost = 0 ∧ (s'.id = false → s'.fd = none) := by
  cases o with
  | upload f =>
    have hs : upload s f = .ok (s', e) := hs
    unfold upload at hs
    split at hs
    · cases hs; exact ⟨h0, hfd⟩
    · split at hs
      · cases hs; exact ⟨h0, hfd⟩
      · rename_i hid
        have hid : s.id = true := by simpa using hid
        simp only [(h.id hid).1, hb.dump] at hs
        split at hs <;> (cases hs; exact ⟨h0, hfd⟩)
  | download got f =>
    have hs : download s got f = .ok (s', e) := hs
    unfold download at hs
    split at hs
    · cases hs; exact ⟨h0, hfd⟩
    · rename_i hid
      have hid : s.id = false := by simpa using hid
      split at hs
      · cases hs; exact ⟨h0, hfd⟩
      · split at hs
        · cases hs; exact ⟨h0, hfd⟩
        · rename_i b ho
          have hg : got = F := by
            have := hf b ho
            rcases h.object with e | e
            · rw [e] at ho; cases ho
            · rw [e] at ho; cases ho; exact this
          subst hg
          split at hs
          · cases hs; exact ⟨h0, hfd⟩
          · cases hs; exact ⟨h0, hfd⟩
          · exact he.elim
          · obtain ⟨fd, lost, e', k1, k2, k3, _⟩ := open_file_ok (s := { s with file := some got, incomplete := none }) hb h.index none
            rw [k1, (k2 rfl).1] at hs
            cases hs
            exact ⟨(k3 (hfd hid)).trans h0, fun e => by cases e⟩
  | dropLocal fail =>
    have hs : Res.ok (dropLocal s fail) = .ok (s', e) := hs
    have hs := Res.ok.inj hs
    have e1 : s' = (dropLocal s fail).1 := by rw [hs]
    rw [e1]
    unfold dropLocal dropped
    split
    · split <;> exact ⟨h0, hfd⟩
    · split
      · exact ⟨h0, fun _ => rfl⟩
      · split <;> exact ⟨h0, fun _ => rfl⟩
  | dropCloud f =>
    have hs : Res.ok (dropCloud s f) = .ok (s', e) := hs
    have hs := Res.ok.inj hs
    have e1 : s' = (dropCloud s f).1 := by rw [hs]
    rw [e1]
    unfold dropCloud dropped
    split
    · split <;> exact ⟨h0, hfd⟩
    · split
      · split
        · exact ⟨h0, hfd⟩
        · split <;> exact ⟨h0, hfd⟩
      · exact ⟨h0, hfd⟩
      · exact ⟨h0, hfd⟩
      · split <;> exact ⟨h0, hfd⟩
  | restart =>
    obtain ⟨s1, h1, h2⟩ := Res.bind_eq_ok.1 hs
    cases h2
    unfold restart at h1
    obtain ⟨s2, _, h3⟩ := Res.bind_eq_ok.1 h1
    split at h3
    · obtain ⟨_, _, h4⟩ := Res.bind_eq_ok.1 h3
      obtain ⟨_, _, h5⟩ := Res.bind_eq_ok.1 h4
      cases h5
      exact ⟨rfl, fun e => by cases e⟩
    · obtain ⟨_, _, h4⟩ := Res.bind_eq_ok.1 h3
      obtain ⟨_, _, h5⟩ := Res.bind_eq_ok.1 h4
      cases h5
      exact ⟨rfl, fun _ => rfl⟩
    · cases h3

end Verif.C75
