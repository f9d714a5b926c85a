import Verif.Spec.C20
import Verif.Proofs.PartFile

/-! Helper lemmas about log records. -/
namespace Verif.Wal
open Io

/-- The events in a record. -/
def bodyOf (es : List LogEvent) : Bytes := es.flatMap fun e => evBytes ⟨e.event, e.left⟩

theorem body_ok {es : List LogEvent} (h : ∀ e ∈ es, e.event.key.length ≤ e.left.length) :
    Log.body es = .ok (bodyOf es) := by
  induction es with
  | nil => rfl
  | cons e es ih =>
    have h1 := h e (by simp)
    rw [Log.body, copyEvent, if_neg (by simp; omega)]
    simp only [Res.bind_ok]
    rw [ih fun e he => h e (by simp [he])]
    simp [bodyOf, evBytes]

theorem bodyOf_length {es : List LogEvent} (h : ∀ e ∈ es, e.event.key.length ≤ e.left.length) :
    (bodyOf es).length + 21 = recSize es := by
  induction es with
  | nil => rfl
  | cons e es ih =>
    have h1 := ih fun e he => h e (by simp [he])
    have h2 := evBytes_length (m := ⟨e.event, e.left⟩) (h e (by simp))
    simp only [bodyOf, List.flatMap_cons, List.length_append, recSize, List.map_cons, List.sum_cons] at h1 h2 ⊢
    omega

/-- The checksum field after the events `b`. -/
def crcOf (crcOn : Bool) (c : Nat) (b : Bytes) : Nat :=
  if crcOn then (Crc.crc32_hw (BitVec.ofNat 32 c) b).toNat else c

theorem crcOf_append (crcOn : Bool) (c : Nat) (a b : Bytes) :
    crcOf crcOn (crcOf crcOn c a) b = crcOf crcOn c (a ++ b) := by
  cases crcOn with
  | false => rfl
  | true => simp only [crcOf, if_true]; rw [BitVec.ofNat_toNat, BitVec.setWidth_eq]
            simp only [Crc.hw_eq, Crc.crc_append]

theorem crcOf_nil (crcOn : Bool) (c : Nat) (h : c < 4294967296) : crcOf crcOn c [] = c := by
  cases crcOn with
  | false => rfl
  | true => simp only [crcOf, if_true, Crc.hw_eq, Crc.crc_nil, BitVec.toNat_ofNat]; omega

theorem crcOf_lt (crcOn : Bool) (c : Nat) (b : Bytes) (h : c < 4294967296) : crcOf crcOn c b < 4294967296 := by
  cases crcOn with
  | false => exact h
  | true => exact (Crc.crc32_hw _ b).isLt

theorem add_ok {crcOn : Bool} {l : Log} {e : LogEvent} (hc : Calm crcOn [e]) :
    l.add crcOn e = .ok
      { write := { l.write with
          count := l.write.count + 1
          crc := crcOf crcOn l.write.crc (evBytes ⟨e.event, e.left⟩)
          size := wrapU32 ((if l.write.count + 1 = 1 then l.write.size + 21 else l.write.size) + event_size e.event : Nat) }
        iov := l.iov ++ [e] } := by
  obtain ⟨h1, h2⟩ := hc e (by simp)
  unfold Log.add
  cases crcOn with
  | false => simp [crcOf]
  | true =>
    obtain ⟨h3, h4⟩ := h2 rfl
    have : copyEvent ⟨e.event, e.seen⟩ = .ok (evBytes ⟨e.event, e.left⟩) := by
      rw [copyEvent, if_neg (by simp; omega)]
      simp only [evBytes, h4]
    simp only [if_true, this, Res.bind_ok, crcOf]

theorem wrapU32_id {x : Nat} (h : x < 4294967296) : wrapU32 (x : Int) = x := by
  unfold wrapU32; omega

theorem calm_cons {crcOn : Bool} {e : LogEvent} {es : List LogEvent} (h : Calm crcOn (e :: es)) :
    Calm crcOn [e] ∧ Calm crcOn es :=
  ⟨fun x hx => h x (by simp at hx; simp [hx]), fun x hx => h x (by simp [hx])⟩

theorem addAll_ok {crcOn : Bool} : ∀ (es : List LogEvent) (l : Log), Calm crcOn es → 0 < l.write.count →
    l.write.crc < 4294967296 → l.write.size + recSize es < 4294967296 →
    Log.addAll crcOn l es = .ok
      { write := { l.write with
          count := l.write.count + es.length
          crc := crcOf crcOn l.write.crc (bodyOf es)
          size := l.write.size + (recSize es - 21) }
        iov := l.iov ++ es } := by
  intro es
  induction es with
  | nil =>
    intro l _ _ hcrc _
    simp only [Log.addAll, bodyOf, List.flatMap_nil, crcOf_nil _ _ hcrc, List.length_nil, Nat.add_zero, recSize,
      List.map_nil, List.sum_nil, Nat.sub_self, List.append_nil]
  | cons e es ih =>
    intro l hc hn hcrc hs
    obtain ⟨h1, h2⟩ := calm_cons hc
    have hr : recSize (e :: es) = event_size e.event + recSize es := by simp [recSize]; omega
    have h21 : 21 ≤ recSize es := by simp [recSize]
    rw [Log.addAll, add_ok h1]
    simp only [Res.bind_ok]
    rw [if_neg (by omega), wrapU32_id (by omega)]
    rw [ih _ h2 (by simp) (crcOf_lt _ _ _ hcrc) (by dsimp only; omega)]
    dsimp only
    rw [crcOf_append]
    have e1 : evBytes ⟨e.event, e.left⟩ ++ bodyOf es = bodyOf (e :: es) := by simp [bodyOf]
    rw [e1, List.append_assoc, List.singleton_append, hr]
    simp only [List.length_cons]
    congr 3 <;> omega

/-- The header of the record of a batch before it is sealed. -/
def headOf (crcOn : Bool) (lsn : Nat) (es : List LogEvent) : LogWrite :=
  { crc := crcOf crcOn 0 (bodyOf es), lsn, type := 0, count := es.length, size := recSize es }

theorem batch_ok {crcOn : Bool} {lsn : Nat} {es : List LogEvent} (hc : Calm crcOn es) (hf : Fits es) :
    batch crcOn lsn es = .ok (((headOf crcOn lsn es).seal_ crcOn).bytes ++ bodyOf es) := by
  obtain ⟨h1, h2, h3⟩ := hf
  have hb := body_ok fun e he => (hc e he).1
  have hs : recSize es ≤ 536870912 := h3
  cases es with
  | nil => exact absurd rfl h1
  | cons e es =>
    obtain ⟨hc1, hc2⟩ := calm_cons hc
    have hr : recSize (e :: es) = event_size e.event + recSize es := by simp [recSize]; omega
    have h21 : 21 ≤ recSize es := by simp [recSize]
    unfold batch
    rw [Log.addAll, add_ok hc1]
    simp only [Res.bind_ok]
    rw [if_pos trivial, wrapU32_id (by omega)]
    rw [addAll_ok es _ hc2 (by simp) (crcOf_lt _ _ _ (by decide)) (by simp; omega)]
    simp only [Res.bind_ok, Log.record, List.nil_append, List.singleton_append]
    rw [if_neg (by simp), hb]
    simp only [Res.bind_ok]
    rw [crcOf_append]
    have e1 : evBytes ⟨e.event, e.left⟩ ++ bodyOf es = bodyOf (e :: es) := by simp [bodyOf]
    rw [e1]
    unfold headOf
    congr 4
    · simp; omega

theorem tail_length (w : LogWrite) : w.tailBytes.length = 17 := by simp [LogWrite.tailBytes]

theorem bytes_length (w : LogWrite) : w.bytes.length = 21 := by simp [LogWrite.bytes, tail_length]

/-- Field widths. -/
def HeadWF (w : LogWrite) : Prop :=
  w.crc < 4294967296 ∧ w.lsn < 18446744073709551616 ∧ w.type < 256 ∧ w.count < 4294967296 ∧ w.size < 4294967296

theorem head_at {w : LogWrite} (h : HeadWF w) (rest : Bytes) : LogWrite.at_ (w.bytes ++ rest) = .ok w := by
  obtain ⟨h1, h2, h3, h4, h5⟩ := h
  unfold LogWrite.at_ LogWrite.bytes LogWrite.tailBytes
  simp only [List.append_assoc]
  rw [getU_le _ (by omega)]; simp only [Res.bind_ok]
  rw [getU_le _ (by omega)]; simp only [Res.bind_ok]
  rw [getU_le _ (by omega)]; simp only [Res.bind_ok]
  rw [getU_le _ (by omega)]; simp only [Res.bind_ok]
  rw [getU_le _ (by omega)]; simp only [Res.bind_ok]

theorem seal_wf {crcOn : Bool} {w : LogWrite} (h : HeadWF w) : HeadWF (w.seal_ crcOn) := by
  unfold LogWrite.seal_
  split
  · exact ⟨(Crc.crc32_hw _ _).isLt, h.2⟩
  · exact h

theorem seal_tail (crcOn : Bool) (w : LogWrite) : (w.seal_ crcOn).tailBytes = w.tailBytes := by
  unfold LogWrite.seal_; split <;> rfl

theorem seal_size (crcOn : Bool) (w : LogWrite) : (w.seal_ crcOn).size = w.size := by
  unfold LogWrite.seal_; split <;> rfl
theorem seal_lsn (crcOn : Bool) (w : LogWrite) : (w.seal_ crcOn).lsn = w.lsn := by
  unfold LogWrite.seal_; split <;> rfl
theorem seal_type (crcOn : Bool) (w : LogWrite) : (w.seal_ crcOn).type = w.type := by
  unfold LogWrite.seal_; split <;> rfl
theorem seal_count (crcOn : Bool) (w : LogWrite) : (w.seal_ crcOn).count = w.count := by
  unfold LogWrite.seal_; split <;> rfl

theorem eof_false {file : Bytes} {offset size : Nat} (h : offset + size < 4294967296)
    (h2 : offset + size ≤ file.length) : eof file offset size = false := by
  unfold eof
  simp only [decide_eq_false_iff_not, gt_iff_lt, Nat.not_lt]
  omega

theorem eof_true {file : Bytes} {offset size : Nat} (h : offset + size < 4294967296)
    (h2 : file.length < offset + size) : eof file offset size = true := by
  unfold eof
  simp only [decide_eq_true_eq, gt_iff_lt]
  omega

/-- A sealed record of header `w` and body `b` is read back wherever it lies. -/
theorem pread_record {crcOn : Bool} {w : LogWrite} {b before after : Bytes} (hw : HeadWF w)
    (hcrc : w.crc = crcOf crcOn 0 b) (hs : w.size = 21 + b.length) (hb : b ≠ []) (hl : w.size ≤ bufLimit)
    (h32 : before.length + w.size < 4294967296) :
    pread crcOn (before ++ ((w.seal_ crcOn).bytes ++ b) ++ after) before.length =
      .ok (some ((w.seal_ crcOn).bytes ++ b)) := by
  have hlen : (before ++ ((w.seal_ crcOn).bytes ++ b) ++ after).length = before.length + w.size + after.length := by
    simp [bytes_length, hs]; omega
  have hp1 : Io.pread (before ++ ((w.seal_ crcOn).bytes ++ b) ++ after) 21 before.length = .ok (w.seal_ crcOn).bytes := by
    have := pread_ok (a := before) (b := (w.seal_ crcOn).bytes) (c := b ++ after)
      (by intro h; have := bytes_length (w.seal_ crcOn); rw [h] at this; simp at this)
    rw [bytes_length] at this
    simpa only [List.append_assoc] using this
  have hp2 : Io.pread (before ++ ((w.seal_ crcOn).bytes ++ b) ++ after) b.length (before.length + 21) = .ok b := by
    have := pread_ok (a := before ++ (w.seal_ crcOn).bytes) (b := b) (c := after) hb
    rw [List.length_append, bytes_length] at this
    simpa only [List.append_assoc] using this
  have hat := head_at (seal_wf (crcOn := crcOn) hw) []
  rw [List.append_nil] at hat
  unfold pread
  rw [eof_false (by omega) (by omega)]
  simp only [Bool.false_eq_true, if_false]
  rw [hp1]
  simp only [Res.bind_ok]
  rw [hat]
  simp only [Res.bind_ok, seal_size]
  rw [eof_false (by omega) (by omega)]
  simp only [Bool.false_eq_true, if_false]
  rw [if_neg (by omega), if_neg (by omega), show w.size - 21 = b.length by omega, hp2]
  simp only [Res.bind_ok]
  rw [if_neg]
  rintro ⟨h1, h2⟩
  apply h2
  subst h1
  have e1 : ((w.seal_ true).bytes).drop 4 = w.tailBytes := by
    rw [LogWrite.bytes, List.drop_left' (le_length _ _), seal_tail]
  rw [e1]
  simp only [LogWrite.seal_, if_true, hcrc, crcOf]
  rw [BitVec.ofNat_toNat, BitVec.setWidth_eq]

theorem recSize_ge (es : List LogEvent) : es.length ≤ recSize es := by
  unfold recSize
  induction es with
  | nil => simp
  | cons e es ih =>
    simp only [List.map_cons, List.sum_cons, List.length_cons] at ih ⊢
    have : 14 ≤ event_size e.event := by unfold event_size; omega
    omega

theorem wf_size {es : List LogEvent} (hf : Fits es) : es.length < 4294967296 := by
  have h3 : recSize es ≤ 536870912 := hf.2.2
  have := recSize_ge es
  omega

theorem head_wf {crcOn : Bool} {lsn : Nat} {es : List LogEvent} (hl : lsn < 18446744073709551616) (hf : Fits es) :
    HeadWF (headOf crcOn lsn es) := by
  have h3 : recSize es ≤ 536870912 := hf.2.2
  refine ⟨crcOf_lt _ _ _ (by decide), hl, by simp [headOf], ?_, ?_⟩
  · exact wf_size hf
  · simp only [headOf]; omega

/-- Reading events out of the body. -/
theorem eventsFrom_ok : ∀ (es : List LogEvent) (pre : Bytes) (fuel : Nat), es ≠ [] → (∀ e ∈ es, WF e.event) →
    (∀ e ∈ es, e.event.key.length ≤ e.left.length) → es.length ≤ fuel →
    eventsFrom (pre ++ bodyOf es) (pre.length + (bodyOf es).length) fuel pre.length = .ok (es.map (·.event)) := by
  intro es
  induction es with
  | nil => intro _ _ h; exact absurd rfl h
  | cons e es ih =>
    intro pre fuel _ hwf hk hfuel
    obtain ⟨fuel, rfl⟩ : ∃ f, fuel = f + 1 := ⟨fuel - 1, by simp at hfuel; omega⟩
    have hb : bodyOf (e :: es) = evBytes ⟨e.event, e.left⟩ ++ bodyOf es := by simp [bodyOf]
    have hel := evBytes_length (m := ⟨e.event, e.left⟩) (hk e (by simp))
    rw [eventsFrom, List.drop_left' rfl, hb, evBytes, List.append_assoc, eventAt_eventBytes (hwf e (by simp))]
    simp only [Res.bind_ok]
    rw [← List.append_assoc (eventBytes e.event), show eventBytes e.event ++ e.left.take e.event.key.length =
      evBytes ⟨e.event, e.left⟩ from rfl]
    rw [List.length_append, hel]
    dsimp only
    cases hes : es with
    | nil =>
      rw [if_pos (by simp [bodyOf])]
      simp
    | cons e2 es2 =>
      rw [← hes]
      have hpos : 0 < (bodyOf es).length := by
        have := bodyOf_length (es := es) fun e he => hk e (by simp [he])
        have h14 : 14 ≤ event_size e2.event := by unfold event_size; omega
        rw [hes] at this ⊢
        simp only [recSize, List.map_cons, List.sum_cons] at this
        omega
      rw [if_neg (by omega)]
      have := ih (pre ++ evBytes ⟨e.event, e.left⟩) fuel (by rw [hes]; simp) (fun e he => hwf e (by simp [he]))
        (fun e he => hk e (by simp [he])) (by simp at hfuel; omega)
      rw [List.length_append, hel, List.append_assoc, Nat.add_assoc] at this
      dsimp only at this
      rw [this]
      simp

theorem round_trip {crcOn : Bool} {lsn : Nat} {es : List LogEvent} (hl : lsn < 18446744073709551616)
    (hc : Calm crcOn es) (hf : Fits es) : C20.RoundTrip crcOn lsn es := by
  have hk : ∀ e ∈ es, e.event.key.length ≤ e.left.length := fun e he => (hc e he).1
  have hbl := bodyOf_length hk
  have hwf := head_wf (crcOn := crcOn) hl hf
  have hne : bodyOf es ≠ [] := by
    intro h
    cases es with
    | nil => exact hf.1 rfl
    | cons e es =>
      rw [h] at hbl
      simp only [recSize, List.length_nil, List.map_cons, List.sum_cons] at hbl
      have h14 : 14 ≤ event_size e.event := by unfold event_size; omega
      omega
  refine ⟨_, batch_ok hc hf, ?_, ?_⟩
  · intro before after h32
    have hlen : (((headOf crcOn lsn es).seal_ crcOn).bytes ++ bodyOf es).length = recSize es := by
      rw [List.length_append, bytes_length]; omega
    rw [hlen] at h32
    exact pread_record hwf rfl (by simp only [headOf]; omega) hne hf.2.2 h32
  · unfold decode
    rw [head_at (seal_wf hwf)]
    simp only [Res.bind_ok, seal_type, seal_size, seal_lsn, seal_count]
    have h0 : (headOf crcOn lsn es).type = 0 := rfl
    rw [if_pos h0]
    have := eventsFrom_ok es ((headOf crcOn lsn es).seal_ crcOn).bytes
      (((headOf crcOn lsn es).seal_ crcOn).bytes ++ bodyOf es).length hf.1 hf.2.1 hk (by
        rw [List.length_append, bytes_length]
        have := recSize_ge es
        omega)
    rw [bytes_length] at this
    have hsz : (headOf crcOn lsn es).size = 21 + (bodyOf es).length := by simp only [headOf]; omega
    rw [hsz, this]
    rfl

theorem drop_round_trip {crcOn : Bool} {lsn id : Nat} (hl : lsn < 18446744073709551616)
    (hi : id < 18446744073709551616) : C20.DropRoundTrip crcOn lsn id := by
  let w : LogWrite := { crc := crcOf crcOn 0 (le 8 id), lsn, type := 1, count := 0, size := 29 }
  have hw : HeadWF w := ⟨crcOf_lt _ _ _ (by decide), hl, by simp [w], by simp [w], by simp [w]⟩
  have he : dropRecord crcOn lsn id = (w.seal_ crcOn).bytes ++ le 8 id := by
    cases crcOn <;> rfl
  refine ⟨?_, ?_⟩
  · intro before after h32
    rw [he]
    exact pread_record hw rfl (by simp [w]) (by intro h; have := congrArg List.length h; simp at this)
      (by simp [w, bufLimit]) h32
  · rw [he]
    unfold decode
    rw [head_at (seal_wf hw)]
    simp only [Res.bind_ok, seal_type, seal_lsn]
    have h0 : w.type = 1 := rfl
    rw [if_neg (by omega), if_pos h0, List.drop_left' (bytes_length _)]
    have := getU_le (w := 8) (n := id) [] (by omega)
    rw [List.append_nil] at this
    rw [this]
    rfl

/-- The events of a layout. -/
theorem layout_events (free : Bytes) (es : List Event) : (C20.layout free es).map (·.event) = es := by
  induction es generalizing free with
  | nil => rfl
  | cons e es ih => simp [C20.layout, ih]

theorem layout_length (free : Bytes) (es : List Event) : (C20.layout free es).length = es.length := by
  rw [← List.length_map (f := (·.event)), layout_events]

theorem layout_left {k : Nat} (es : List Event) : ∀ (free : Bytes),
    (es.flatMap eventBytes).length + k ≤ free.length →
    ∀ x ∈ C20.layout free es, k ≤ x.left.length ∧ x.event ∈ es := by
  induction es with
  | nil => intro free _ x hx; simp [C20.layout] at hx
  | cons e es ih =>
    intro free h x hx
    simp only [List.flatMap_cons, List.length_append] at h
    simp only [C20.layout, List.mem_cons] at hx
    rcases hx with rfl | hx
    · refine ⟨?_, by simp⟩
      simp only [List.length_append, List.length_drop]; omega
    · have := ih (free.drop (eventBytes e).length) (by simp only [List.length_drop]; omega) x hx
      exact ⟨this.1, by simp [this.2]⟩

theorem layout_event {es : List Event} {free : Bytes} {x : LogEvent} (h : x ∈ C20.layout free es) : x.event ∈ es := by
  rw [← layout_events free es]; exact List.mem_map_of_mem h

theorem layout_size (free : Bytes) (es : List Event) :
    recSize (C20.layout free es) = 21 + (es.map event_size).sum := by
  unfold recSize
  congr 2
  rw [show (fun e : LogEvent => event_size e.event) = event_size ∘ (·.event) from rfl, ← List.map_map, layout_events]

theorem layout_fits {free : Bytes} {es : List Event} (hn : es ≠ []) (hw : ∀ e ∈ es, WF e)
    (hs : 21 + (es.map event_size).sum ≤ bufLimit) : Fits (C20.layout free es) := by
  refine ⟨?_, fun x hx => hw _ (layout_event hx), by rw [layout_size]; exact hs⟩
  intro h
  have := layout_length free es
  rw [h] at this
  cases es with
  | nil => exact hn rfl
  | cons _ _ => simp at this

end Verif.Wal
