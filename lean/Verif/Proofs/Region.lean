import Verif.Spec.PartFile
import Verif.Proofs.Bytes

namespace Verif.Io

theorem copyEvent_ok {m : EventMem} {bs : Bytes} (h : copyEvent m = .ok bs) :
    bs = evBytes m ∧ m.event.key.length ≤ m.slack.length := by
  unfold copyEvent at h
  split at h
  · simp at h
  · exact ⟨(Res.ok.inj h).symm, by omega⟩

theorem eventBytes_length (e : Event) : (eventBytes e).length = 14 + (e.key.length + e.value.length) := by
  simp [eventBytes]; omega

theorem evBytes_length {m : EventMem} (h : m.event.key.length ≤ m.slack.length) :
    (evBytes m).length = event_size m.event := by
  simp [evBytes, eventBytes_length, event_size, List.length_take, Nat.min_eq_left h]; omega

theorem eventAt_eventBytes {e : Event} (h : WF e) (rest : Bytes) : eventAt (eventBytes e ++ rest) = .ok e := by
  obtain ⟨h1, h2, h3, h4⟩ := h
  unfold eventAt eventBytes
  simp only [List.append_assoc]
  rw [getU_le _ (by omega)]
  simp only [Res.bind_ok]
  rw [getU_le _ (by omega)]
  simp only [Res.bind_ok]
  rw [getU_le _ (by omega)]
  simp only [Res.bind_ok]
  rw [getU_le _ (by omega)]
  simp only [Res.bind_ok]
  rw [if_neg (by simp), if_neg (by omega)]
  congr 1
  cases e with
  | mk id flags key value =>
    simp only
    rw [List.take_left' (by rfl)]
    congr 1
    rw [← List.append_assoc, List.take_left' (by simp), List.drop_left' (by rfl)]

theorem getU8_evBytes {m : EventMem} (h : WF m.event) (rest : Bytes) :
    ∃ r, getU 8 (evBytes m ++ rest) = .ok (m.event.id, r) := by
  unfold evBytes eventBytes
  simp only [List.append_assoc]
  exact ⟨_, getU_le _ (by have := h.1; omega)⟩

theorem dataOf_append (a b : List EventMem) : dataOf (a ++ b) = dataOf a ++ dataOf b := by simp [dataOf]

theorem offsOf_length (ms : List EventMem) : (offsOf ms).length = ms.length := by simp [offsOf]

theorem offsOf_snoc (ms : List EventMem) (m : EventMem) : offsOf (ms ++ [m]) = offsOf ms ++ [(dataOf ms).length] := by
  unfold offsOf
  rw [List.length_append, List.length_singleton, List.range_succ, List.map_append]
  congr 1
  · apply List.map_congr_left
    intro i hi
    have hi := List.mem_range.1 hi
    rw [List.take_append_of_le_length (by omega)]
  · simp [List.take_left' (rfl : ms.length = ms.length)]

theorem offsOf_get {ms : List EventMem} {i : Nat} (h : i < ms.length) :
    (offsOf ms)[i]? = some (dataOf (ms.take i)).length := by
  simp [offsOf, h]

theorem dataOf_drop (ms : List EventMem) (i : Nat) : (dataOf ms).drop (dataOf (ms.take i)).length = dataOf (ms.drop i) := by
  conv => lhs; arg 2; rw [← List.take_append_drop i ms, dataOf_append]
  rw [List.drop_left' rfl]

theorem dataOf_get {ms : List EventMem} {i : Nat} {m : EventMem} (h : ms[i]? = some m) :
    ∃ rest, (dataOf ms).drop (dataOf (ms.take i)).length = evBytes m ++ rest := by
  obtain ⟨hlt, he⟩ := List.getElem?_eq_some_iff.1 h
  refine ⟨dataOf (ms.drop (i + 1)), ?_⟩
  rw [dataOf_drop, List.drop_eq_getElem_cons hlt, he]
  simp [dataOf]

theorem dataOf_take_le (ms : List EventMem) (i : Nat) : (dataOf (ms.take i)).length ≤ (dataOf ms).length := by
  conv => rhs; rw [← List.take_append_drop i ms, dataOf_append]
  simp

theorem flat4_length (l : List Nat) : (l.flatMap (le 4)).length = 4 * l.length := by
  induction l with
  | nil => rfl
  | cons x l ih => simp only [List.flatMap_cons, List.length_append, le_length, ih, List.length_cons]; omega

theorem flat4_drop (l : List Nat) (i : Nat) : (l.flatMap (le 4)).drop (4 * i) = (l.drop i).flatMap (le 4) := by
  induction i generalizing l with
  | zero => simp
  | succ i ih =>
    cases l with
    | nil => simp
    | cons x l =>
      rw [List.flatMap_cons, List.drop_succ_cons, ← ih l]
      have : 4 * (i + 1) = 4 + 4 * i := by omega
      rw [this, ← List.drop_drop, List.drop_left' (le_length 4 x)]

theorem rawOf_length (ms : List EventMem) : (rawOf ms).length = rawSize ms := by
  simp only [rawOf, List.length_append, le_length, List.length_replicate, flat4_length, offsOf_length, rawSize]

theorem get_raw {ms : List EventMem} (hwf : ∀ m ∈ ms, WF m.event) (hsz : rawSize ms < 4294967296)
    {i : Nat} {m : EventMem} (hi : ms[i]? = some m) :
    Region.get ⟨rawOf ms, ms.length⟩ i = .ok m.event := by
  obtain ⟨hlt, he⟩ := List.getElem?_eq_some_iff.1 hi
  unfold Region.get
  rw [if_neg (by show ¬ ms.length ≤ i; omega)]
  have h24 : (le 4 (24 + 4 * ms.length + (dataOf ms).length) ++ le 4 ms.length ++ List.replicate 16 (0 : UInt8)).length = 24 := by
    simp
  have e1 : (rawOf ms).drop 24 = (offsOf ms).flatMap (le 4) ++ dataOf ms := by
    unfold rawOf
    rw [List.append_assoc, List.drop_left' h24]
  have e2 : ((rawOf ms).drop 24).drop (4 * i) = ((offsOf ms).drop i).flatMap (le 4) ++ dataOf ms := by
    rw [e1, List.drop_append_of_le_length (by rw [flat4_length, offsOf_length]; omega), flat4_drop]
  have ho := offsOf_get hlt
  obtain ⟨hlt', ho'⟩ := List.getElem?_eq_some_iff.1 ho
  dsimp only
  rw [e2, List.drop_eq_getElem_cons hlt', ho', List.flatMap_cons, List.append_assoc]
  have hle := dataOf_take_le ms i
  unfold rawSize at hsz
  rw [getU_le _ (by omega)]
  simp only [Res.bind_ok]
  have e3 : (rawOf ms).drop (24 + 4 * ms.length + (dataOf (ms.take i)).length)
      = (dataOf ms).drop (dataOf (ms.take i)).length := by
    rw [← List.drop_drop, ← List.drop_drop, e1, List.drop_left' (by rw [flat4_length, offsOf_length])]
  obtain ⟨rest, hr⟩ := dataOf_get hi
  rw [e3, hr]
  unfold evBytes
  rw [List.append_assoc]
  exact eventAt_eventBytes (hwf m (he ▸ List.getElem_mem hlt)) _

/-- A region writer that has received exactly `ms`. -/
structure Holds (w : RegionWriter) (ms : List EventMem) : Prop where
  started : w.started = true
  offsets : w.offsets = offsOf ms
  data : w.data = dataOf ms
  events : w.events = ms.length
  slack : ∀ m ∈ ms, m.event.key.length ≤ m.slack.length

theorem Holds.metaLen {w : RegionWriter} {ms : List EventMem} (h : Holds w ms) : w.metaBytes.length = 24 + 4 * ms.length := by
  unfold RegionWriter.metaBytes
  rw [if_pos h.started]
  simp only [List.length_append, le_length, List.length_replicate, flat4_length, h.offsets, offsOf_length]

theorem Holds.byteSize {w : RegionWriter} {ms : List EventMem} (h : Holds w ms) : w.byteSize = rawSize ms := by
  unfold RegionWriter.byteSize rawSize
  rw [h.metaLen, h.data]

theorem holds_start (w : RegionWriter) : Holds w.reset.start [] :=
  ⟨rfl, rfl, rfl, rfl, by simp⟩

theorem holds_add {w w' : RegionWriter} {ms : List EventMem} {m : EventMem} (h : Holds w ms) (ha : w.add m = .ok w') :
    Holds w' (ms ++ [m]) := by
  unfold RegionWriter.add at ha
  split at ha
  · simp at ha
  · obtain ⟨bs, h1, h2⟩ := Res.bind_eq_ok.1 ha
    obtain ⟨d, h3, h4⟩ := Res.bind_eq_ok.1 h2
    obtain ⟨rfl, hs⟩ := copyEvent_ok h1
    unfold bufWrite at h3
    split at h3
    · simp at h3
    · have h3 := (Res.ok.inj h3).symm
      have h4 := (Res.ok.inj h4).symm
      subst h3 h4
      refine ⟨h.started, ?_, ?_, ?_, ?_⟩
      · simp only [offsOf_snoc, h.offsets, h.data]
      · simp only [h.data, dataOf_append]; simp [dataOf]
      · simp only [h.events, List.length_append, List.length_singleton]
      · intro x hx
        rcases List.mem_append.1 hx with hx | hx
        · exact h.slack x hx
        · simp only [List.mem_singleton] at hx; subst hx; exact hs

theorem add_ok {w : RegionWriter} {ms : List EventMem} {m : EventMem} (h : Holds w ms)
    (hs : m.event.key.length ≤ m.slack.length) (hl : rawSize (ms ++ [m]) ≤ bufLimit) : ∃ w', w.add m = .ok w' := by
  unfold RegionWriter.add
  have hd := dataOf_append ms [m]
  have hd2 : dataOf [m] = evBytes m := by simp [dataOf]
  have hl2 : rawSize (ms ++ [m]) = rawSize ms + 4 + (evBytes m).length := by
    unfold rawSize
    rw [hd, hd2]
    simp only [List.length_append, List.length_singleton]
    omega
  have hr : rawSize ms = 24 + 4 * ms.length + (dataOf ms).length := rfl
  rw [if_neg (by rw [h.metaLen]; omega)]
  unfold copyEvent
  rw [if_neg (by omega)]
  simp only [Res.bind_ok]
  unfold bufWrite
  have he : (eventBytes m.event ++ m.slack.take m.event.key.length).length = (evBytes m).length := rfl
  rw [if_neg (by rw [h.data]; omega)]
  simp only [Res.bind_ok]
  exact ⟨_, rfl⟩

theorem minId_ok {w : RegionWriter} {m : EventMem} {ms : List EventMem} (h : Holds w (m :: ms)) (hwf : WF m.event) :
    w.minId = .ok m.event.id := by
  unfold RegionWriter.minId
  rw [h.data]
  obtain ⟨r, hr⟩ := getU8_evBytes hwf (dataOf ms)
  have : dataOf (m :: ms) = evBytes m ++ dataOf ms := by simp [dataOf]
  rw [this, hr]
  rfl

theorem maxId_ok {w : RegionWriter} {m : EventMem} {ms : List EventMem} (h : Holds w (ms ++ [m])) (hwf : WF m.event) :
    w.maxId = .ok m.event.id := by
  unfold RegionWriter.maxId
  rw [h.offsets, offsOf_snoc, List.getLast?_concat]
  dsimp only
  have : w.data.drop (dataOf ms).length = evBytes m ++ [] := by
    rw [h.data, dataOf_append, List.drop_left' rfl]; simp [dataOf]
  rw [this]
  obtain ⟨r, hr⟩ := getU8_evBytes hwf []
  rw [hr]
  rfl

/-- The bytes `b` decode to `x`. -/
def Opens (comp : Option Comp) (encr : Option Encr) (b x : Bytes) : Prop :=
  ((match encr with
    | some e => e.decrypt b
    | none => .ok b).bind fun d =>
   match comp with
    | some c => c.decompress d x.length
    | none => .ok d) = .ok x

theorem compress_fits {c : Comp} {cap : Nat} {x : Bytes} (h : c.exact = true → (c.frame x).length ≤ x.length) :
    (compress c cap x).1 = c.frame x := by
  unfold compress
  dsimp only
  split
  · rename_i he
    have := h he
    dsimp only
    apply List.take_of_length_le
    split
    · omega
    · split <;> omega
  · rfl

/-- After region_writer_stop: header complete, and what is written decodes to
the raw region. -/
theorem stop_ok {comp : Option Comp} {encr : Option Encr} {iv : Nat} {w w' : RegionWriter} {ms : List EventMem}
    (h : Holds w ms) (hs : w.stop comp encr iv = .ok w') :
    Holds w' ms ∧ w'.size = rawSize ms ∧ w'.raw = rawOf ms ∧
      (CompFits comp (rawOf ms) → Opens comp encr (w'.out comp encr) (rawOf ms) ∧ w'.out comp encr ≠ []) := by
  have hraw : ({ w with size := w.byteSize } : RegionWriter).raw = rawOf ms := by
    unfold RegionWriter.raw RegionWriter.metaBytes rawOf
    dsimp only
    rw [if_pos h.started, h.events, h.offsets, h.data, h.byteSize]
    rfl
  have hz : w.byteSize = rawSize ms := h.byteSize
  unfold RegionWriter.stop at hs
  cases comp with
  | none =>
    cases encr with
    | none =>
      have hs := (Res.ok.inj hs).symm
      subst hs
      refine ⟨⟨h.1, h.2, h.3, h.4, h.5⟩, hz, hraw, fun _ => ⟨by simp [Opens, RegionWriter.out, hraw], ?_⟩⟩
      simp only [RegionWriter.out, hraw]
      intro h0
      have := rawOf_length ms
      rw [h0] at this
      simp only [List.length_nil, rawSize] at this
      omega
    | some e =>
      obtain ⟨y, hy, h2⟩ := Res.bind_eq_ok.1 hs
      have h2 := (Res.ok.inj h2).symm
      subst h2
      refine ⟨⟨h.1, h.2, h.3, h.4, h.5⟩, hz, hraw, fun _ => ?_⟩
      dsimp only at hy
      rw [hraw] at hy
      exact ⟨by simp [Opens, RegionWriter.out, e.law _ _ _ hy], e.encrypt_ne _ _ _ hy⟩
  | some c =>
    have hl := rawOf_length ms
    cases encr with
    | none =>
      have hs := (Res.ok.inj hs).symm
      subst hs
      refine ⟨⟨h.1, h.2, h.3, h.4, h.5⟩, hz, hraw, fun hc => ?_⟩
      simp only [Opens, RegionWriter.out, Res.bind_ok, hraw]
      rw [compress_fits hc, c.law]
      exact ⟨rfl, c.frame_ne _⟩
    | some e =>
      obtain ⟨y, hy, h2⟩ := Res.bind_eq_ok.1 hs
      have h2 := (Res.ok.inj h2).symm
      subst h2
      refine ⟨⟨h.1, h.2, h.3, h.4, h.5⟩, hz, hraw, fun hc => ?_⟩
      dsimp only at hy
      rw [hraw, compress_fits hc] at hy
      simp only [Opens, RegionWriter.out, e.law _ _ _ hy, Res.bind_ok]
      rw [c.law]
      exact ⟨rfl, e.encrypt_ne _ _ _ hy⟩

end Verif.Io
