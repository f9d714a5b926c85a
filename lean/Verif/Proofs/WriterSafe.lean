import Verif.Proofs.PartScan

/-! The writer does not fail within the size limits. -/
namespace Verif.Io

/-- The encryption accepts everything. -/
def Encrypts (encr : Option Encr) : Prop := ∀ e, encr = some e → ∀ n x, ∃ y, e.encrypt n x = .ok y

theorem rawSize_infix {a b : List EventMem} (h : a <:+: b) : rawSize a ≤ rawSize b := by
  obtain ⟨x, y, rfl⟩ := h
  unfold rawSize
  simp only [dataOf_append, List.length_append]
  omega

theorem stop_safe {comp : Option Comp} {encr : Option Encr} (iv : Nat) (w : RegionWriter) (he : Encrypts encr) :
    ∃ w', w.stop comp encr iv = .ok w' := by
  unfold RegionWriter.stop
  cases encr with
  | none => exact ⟨_, rfl⟩
  | some e =>
    dsimp only
    obtain ⟨y, hy⟩ := he e rfl iv (match comp with
      | some _ => (match comp with
        | none => ({ w with size := w.byteSize } : RegionWriter)
        | some c => { ({ w with size := w.byteSize } : RegionWriter) with
            compressed := (compress c w.cap ({ w with size := w.byteSize } : RegionWriter).raw).1
            cap := (compress c w.cap ({ w with size := w.byteSize } : RegionWriter).raw).2 }).compressed
      | none => (match comp with
        | none => ({ w with size := w.byteSize } : RegionWriter)
        | some c => { ({ w with size := w.byteSize } : RegionWriter) with
            compressed := (compress c w.cap ({ w with size := w.byteSize } : RegionWriter).raw).1
            cap := (compress c w.cap ({ w with size := w.byteSize } : RegionWriter).raw).2 }).raw)
    cases comp with
    | none => exact ⟨_, Res.bind_eq_ok.2 ⟨y, hy, rfl⟩⟩
    | some c => exact ⟨_, Res.bind_eq_ok.2 ⟨y, hy, rfl⟩⟩

theorem stop_region_safe {comp : Option Comp} {encr : Option Encr} {s : WriterSource} {w : Writer} {es : List Ent}
    {cur : List EventMem} (h : Inv comp encr s w es cur) (hwf : ∀ m ∈ cur, WF m.event) (he : Encrypts encr)
    (hn : 52 * (es.length + 1) ≤ 536870912) : ∃ w', w.stop_region = .ok w' := by
  unfold Writer.stop_region
  rcases h.hcur with ⟨hst, hh, hne⟩ | ⟨hst, hc, hes⟩
  · rw [if_neg (by simp [hst]), h.hcomp, h.hencr]
    obtain ⟨rw', h1⟩ := stop_safe (comp := comp) w.iv w.region_writer he
    obtain ⟨g1, g2, g3, g4⟩ := stop_ok hh h1
    rw [h1]
    simp only [Res.bind_ok]
    obtain ⟨a, la, hla⟩ := exists_last hne
    obtain ⟨f, lf, hlf⟩ : ∃ f lf, cur = f :: lf := by
      cases cur with
      | nil => exact absurd rfl hne
      | cons f lf => exact ⟨f, lf, rfl⟩
    have hmin : rw'.minId = .ok (firstId cur) := by
      rw [hlf]; exact minId_ok (hlf ▸ g1) (hwf f (by simp [hlf]))
    have hmax : rw'.maxId = .ok (lastId cur) := by
      rw [hla, lastId_snoc]; exact maxId_ok (hla ▸ g1) (hwf la (by simp [hla]))
    have hev : rw'.events ≠ 0 := by
      rw [g1.events]; intro h0; exact hne (List.eq_nil_of_length_eq_zero h0)
    unfold IndexWriter.add
    rw [if_neg hev, hmin, hmax]
    simp only [Res.bind_ok]
    have hdl : w.index_writer.data.length = 52 * es.length := by rw [h.data, irs_length, irsFrom_length]
    unfold bufWrite
    rw [if_neg (by rw [hdl, ir_length]; unfold bufLimit; omega)]
    exact ⟨_, rfl⟩
  · rw [if_pos (by simp [hst])]
    exact ⟨_, rfl⟩

theorem add_safe {comp : Option Comp} {encr : Option Encr} {s : WriterSource} {w : Writer} {es : List Ent}
    {cur : List EventMem} {m : EventMem} (h : Inv comp encr s w es cur) (hwf : ∀ m ∈ cur, WF m.event)
    (he : Encrypts encr) (hn : 52 * (es.length + 1) ≤ 536870912) (hs : m.event.key.length ≤ m.slack.length)
    (hl : rawSize (cur ++ [m]) ≤ 536870912) : ∃ w', w.add m = .ok w' := by
  have hl1 : rawSize ([] ++ [m]) ≤ 536870912 := Nat.le_trans (rawSize_infix ⟨cur, [], by simp⟩) hl
  -- the last step
  have last : ∀ (w1 : Writer) (c : List EventMem), Holds w1.region_writer c → rawSize (c ++ [m]) ≤ 536870912 →
      ∃ w', ((w1.region_writer.add m).bind fun rw => Res.ok { w1 with region_writer := rw }) = .ok w' := by
    intro w1 c hh hc
    obtain ⟨rw', hr⟩ := add_ok hh hs hc
    rw [hr]
    exact ⟨_, rfl⟩
  unfold Writer.add
  obtain ⟨w2, h2⟩ := stop_region_safe h hwf he hn
  rcases h.hcur with ⟨hst, hh, hne⟩ | ⟨hst, hc, hes⟩
  · by_cases hlim : w.is_region_limit = true
    · rw [if_pos hlim, if_pos hst]
      obtain ⟨a, la, hla⟩ := exists_last hne
      have hmax : w.region_writer.maxId = .ok (lastId cur) := by
        rw [hla, lastId_snoc]; exact maxId_ok (hla ▸ hh) (hwf la (by simp [hla]))
      rw [hmax]
      simp only [Res.bind_ok]
      by_cases hid : (lastId cur == m.event.id) = true
      · rw [if_pos hid]
        simp only [Res.bind_ok]
        exact last w cur hh hl
      · rw [if_neg hid, h2]
        simp only [Res.bind_ok]
        exact last w2.start_region [] (holds_start w2.region_writer) hl1
    · rw [if_neg hlim]
      simp only [Res.bind_ok]
      exact last w cur hh hl
  · have hlim : w.is_region_limit = true := by unfold Writer.is_region_limit; simp [hst]
    rw [if_pos hlim, if_neg (by simp [hst])]
    simp only [Res.bind_ok]
    rw [if_neg (by decide), h2]
    simp only [Res.bind_ok]
    exact last w2.start_region [] (holds_start w2.region_writer) hl1

theorem length_flat {es : List Ent} (h : ∀ e ∈ es, e.ms ≠ []) : es.length ≤ (es.flatMap (·.ms)).length := by
  induction es with
  | nil => simp
  | cons e es ih =>
    have h1 : e.ms.length ≠ 0 := by simpa using h e (by simp)
    have h2 := ih fun y hy => h y (by simp [hy])
    simp only [List.flatMap_cons, List.length_append, List.length_cons]
    omega

theorem addAll_safe {comp : Option Comp} {encr : Option Encr} {s : WriterSource} {all : List EventMem}
    (he : Encrypts encr) (hwf : ∀ m ∈ all, WF m.event ∧ m.event.key.length ≤ m.slack.length)
    (hn : 52 * all.length ≤ 536870912) (hl : rawSize all ≤ 536870912) (ms : List EventMem) :
    ∀ (w : Writer) (es : List Ent) (cur : List EventMem), Inv comp encr s w es cur →
      es.flatMap (·.ms) ++ cur ++ ms = all → ∃ w', w.addAll ms = .ok w' := by
  induction ms with
  | nil => intro w es cur h ha; exact ⟨w, rfl⟩
  | cons m ms ih =>
    intro w es cur h ha
    have hcur : ∀ x ∈ cur, WF x.event := fun x hx => (hwf x (by rw [← ha]; simp [hx])).1
    have hlen := congrArg List.length ha
    simp only [List.length_append, List.length_cons] at hlen
    have hfl := length_flat fun e he => (h.opens e he).2.1
    obtain ⟨w1, h1⟩ := add_safe (m := m) h hcur he (by omega) (hwf m (by rw [← ha]; simp)).2
      (Nat.le_trans (rawSize_infix ⟨es.flatMap (·.ms), ms, by rw [← ha]; simp⟩) hl)
    obtain ⟨es1, cur1, g1, g2⟩ := inv_add h hcur h1
    unfold Writer.addAll
    rw [h1]
    simp only [Res.bind_ok]
    exact ih w1 es1 cur1 g1 (by rw [g2, ← ha]; simp)

theorem pack_safe {comp : Option Comp} {encr : Option Encr} (iv : Nat) (w : IndexWriter) (he : Encrypts encr) :
    ∃ w', w.pack comp encr iv = .ok w' := by
  unfold IndexWriter.pack
  cases encr with
  | none => exact ⟨_, rfl⟩
  | some e =>
    cases comp with
    | none =>
      obtain ⟨y, hy⟩ := he e rfl iv w.data
      exact ⟨_, Res.bind_eq_ok.2 ⟨y, hy, rfl⟩⟩
    | some c =>
      obtain ⟨y, hy⟩ := he e rfl iv (compress c w.cap w.data).1
      exact ⟨_, Res.bind_eq_ok.2 ⟨y, hy, rfl⟩⟩

theorem write_safe {cs : Codecs} {s : WriterSource} (a : IndexWriter.StopArg) {ms : List EventMem}
    (he : Encrypts (if s.encryption = 0 then none else cs.encr s.encryption))
    (hwf : ∀ m ∈ ms, WF m.event ∧ m.event.key.length ≤ m.slack.length)
    (hn : 52 * ms.length ≤ 536870912) (hl : rawSize ms ≤ 536870912) : ∃ w, writeFile cs s a ms = .ok w := by
  unfold writeFile
  obtain ⟨w1, h1⟩ := addAll_safe he hwf hn hl ms _ [] [] (inv_start cs s) (by simp)
  obtain ⟨es, cur, g1, g2⟩ := inv_addAll (inv_start cs s) (by simpa using fun m hm => (hwf m hm).1) h1
  simp only [List.flatMap_nil, List.nil_append] at g2
  rw [h1]
  simp only [Res.bind_ok]
  unfold Writer.stop
  rw [if_neg (by simp [g1.active])]
  have hcur : ∀ x ∈ cur, WF x.event := fun x hx => (hwf x (by rw [← g2]; simp [hx])).1
  have hlen := congrArg List.length g2
  simp only [List.length_append] at hlen
  have hfl := length_flat fun e he => (g1.opens e he).2.1
  have hsr : ∃ w2, w1.stop_region = .ok w2 := by
    rcases g1.hcur with ⟨hst, hh, hne⟩ | ⟨hst, hc, hes⟩
    · have : cur.length ≠ 0 := by simpa using hne
      exact stop_region_safe g1 hcur he (by omega)
    · exact stop_region_safe g1 hcur he (by subst hes; simp)
  obtain ⟨w2, h2⟩ := hsr
  obtain ⟨es', c, _⟩ := inv_close g1 hcur h2
  rw [h2]
  simp only [Res.bind_ok]
  rw [c.hencr]
  obtain ⟨iw, hiw⟩ := pack_safe (comp := w2.comp) w2.iv w2.index_writer he
  unfold IndexWriter.stop
  rw [hiw]
  exact ⟨_, rfl⟩

end Verif.Io
