import Verif.Spec.C22
import Verif.Proofs.Wal

/-! Helper lemmas: reading the log. -/
namespace Verif.C22
open Io Wal

/-- `b` is a record for `e`. -/
structure IsRec (crcOn : Bool) (b : Bytes) (e : Entry) : Prop where
  read : ∀ before after : Bytes, before.length + b.length < 4294967296 →
    Wal.pread crcOn (before ++ b ++ after) before.length = .ok (some b)
  dec : decode b = .ok e.record
  head : ∃ w, LogWrite.at_ b = .ok w ∧ w.size = b.length ∧ w.lsn = e.lsn
  size : b.length ≤ bufLimit
  full : ∃ (w : LogWrite) (r : Bytes), HeadWF w ∧ b = w.bytes ++ r ∧ w.size = b.length

theorem entry_rec {crcOn : Bool} {e : Entry} (h : e.Good crcOn) : ∃ b, e.bytes crcOn = .ok b ∧ IsRec crcOn b e := by
  cases e with
  | write l es =>
    obtain ⟨h1, h2, h3⟩ := h
    have hwf := head_wf (crcOn := crcOn) h1 h3
    have hlen : (((headOf crcOn l es).seal_ crcOn).bytes ++ bodyOf es).length = recSize es := by
      rw [List.length_append, bytes_length]
      have := bodyOf_length fun e he => (h2 e he).1
      omega
    obtain ⟨b, hb, hr, hd⟩ := round_trip h1 h2 h3
    have e1 : b = ((headOf crcOn l es).seal_ crcOn).bytes ++ bodyOf es := by
      rw [batch_ok h2 h3] at hb
      exact (Res.ok.inj hb).symm
    have hsz : ((headOf crcOn l es).seal_ crcOn).size = b.length := by
      rw [e1, hlen, seal_size]; rfl
    refine ⟨b, hb, hr, hd, ⟨(headOf crcOn l es).seal_ crcOn, ?_, hsz, ?_⟩, ?_, ⟨_, _, seal_wf hwf, e1, hsz⟩⟩
    · rw [e1]; exact head_at (seal_wf hwf) _
    · rw [seal_lsn]; rfl
    · rw [e1, hlen]; exact h3.2.2
  | drop l id =>
    obtain ⟨h1, h2⟩ := h
    obtain ⟨hr, hd⟩ := drop_round_trip (crcOn := crcOn) h1 h2
    let w : LogWrite := { crc := crcOf crcOn 0 (le 8 id), lsn := l, type := 1, count := 0, size := 29 }
    have hw : HeadWF w := ⟨crcOf_lt _ _ _ (by decide), h1, by simp [w], by simp [w], by simp [w]⟩
    have he : dropRecord crcOn l id = (w.seal_ crcOn).bytes ++ le 8 id := by cases crcOn <;> rfl
    have hlen : (dropRecord crcOn l id).length = 29 := by rw [he, List.length_append, bytes_length]; simp
    refine ⟨_, rfl, by rw [hlen]; exact hr, hd, ⟨w.seal_ crcOn, ?_, ?_, ?_⟩, ?_, ⟨_, _, seal_wf hw, he, ?_⟩⟩
    · rw [he]; exact head_at (seal_wf hw) _
    · rw [hlen, seal_size]
    · rw [seal_lsn]; rfl
    · rw [hlen]; simp [bufLimit]
    · rw [hlen, seal_size]

theorem rec_ge {crcOn : Bool} {b : Bytes} {e : Entry} (h : IsRec crcOn b e) : 21 ≤ b.length := by
  obtain ⟨w, r, _, h2, _⟩ := h.full
  rw [h2, List.length_append, bytes_length]; omega

/-- Nothing is read at torn bytes at the end of a file. -/
theorem torn_none {crcOn : Bool} {t before : Bytes} (h : TornWF crcOn t)
    (hs : before.length + t.length ≤ 3221225472) : Wal.pread crcOn (before ++ t) before.length = .ok none := by
  unfold Wal.pread
  by_cases h21 : t.length < 21
  · rw [eof_true (by omega) (by simp; omega)]
    rfl
  · rw [eof_false (by omega) (by simp; omega)]
    simp only [Bool.false_eq_true, if_false]
    rcases h with rfl | ⟨e, b, n, hg, hb, hn, rfl⟩
    · simp at h21
    · obtain ⟨b', hb', hr⟩ := entry_rec hg
      rw [hb] at hb'
      have hb' := Res.ok.inj hb'
      subst hb'
      obtain ⟨w, r, hw, h2, h3⟩ := hr.full
      have hsz := hr.size
      unfold bufLimit at hsz
      have hn21 : 21 ≤ n := by simp [List.length_take] at h21; omega
      have e1 : b.take n = w.bytes ++ r.take (n - 21) := by
        rw [h2, List.take_append, bytes_length, List.take_of_length_le (by rw [bytes_length]; omega)]
      have hp : Io.pread (before ++ b.take n) 21 before.length = .ok w.bytes := by
        have := pread_ok (a := before) (b := w.bytes) (c := r.take (n - 21))
          (by intro h; have := bytes_length w; rw [h] at this; simp at this)
        rw [bytes_length, List.append_assoc, ← e1] at this
        exact this
      have hat := head_at hw []
      rw [List.append_nil] at hat
      rw [hp]
      simp only [Res.bind_ok]
      rw [hat]
      simp only [Res.bind_ok]
      rw [h3, eof_true (by omega) (by simp [List.length_take]; omega)]
      rfl

/-- A record and what it stands for. -/
structure R where
  bytes : Bytes
  entry : Entry

/-- A file as records. -/
structure RFile where
  id : Nat
  recs : List R
  torn : Bytes

namespace RFile
def flat (l : List R) : Bytes := l.flatMap (·.bytes)
def data (f : RFile) : Bytes := flat f.recs ++ f.torn
end RFile
open RFile

/-- The files of the directory. -/
structure View (crcOn : Bool) (fs : List RFile) (d : Dir) : Prop where
  list : d.list = fs.map (·.id)
  files : d.files = fs.map fun f => (f.id, f.data)
  asc : fs.Pairwise (fun f g => f.id < g.id)
  lt : ∀ f ∈ fs, f.id < 18446744073709551615
  recs : ∀ f ∈ fs, ∀ r ∈ f.recs, IsRec crcOn r.bytes r.entry
  torn : ∀ f ∈ fs, TornWF crcOn f.torn
  small : ∀ f ∈ fs, f.data.length ≤ 3221225472

/-- The id of the first file of a list, and UINT64_MAX without one. -/
def firstId : List RFile → Nat
  | [] => 18446744073709551615
  | g :: _ => g.id

theorem idNext_spec (l1 : List RFile) (f : RFile) (l2 : List RFile)
    (h : (l1 ++ f :: l2).Pairwise (fun f g => f.id < g.id)) :
    idNext ((l1 ++ f :: l2).map (·.id)) f.id = firstId l2 := by
  induction l1 with
  | nil =>
    simp only [List.nil_append, List.map_cons, idNext]
    rw [if_neg (by omega)]
    cases l2 with
    | nil => rfl
    | cons g l2 =>
      simp only [List.nil_append, List.pairwise_cons] at h
      have := h.1 g (by simp)
      simp only [List.map_cons, idNext]
      rw [if_pos (by omega)]
      rfl
  | cons g l1 ih =>
    simp only [List.cons_append, List.pairwise_cons] at h
    have := h.1 f (by simp)
    simp only [List.cons_append, List.map_cons, idNext]
    rw [if_neg (by omega)]
    exact ih h.2

theorem open_spec {crcOn : Bool} {fs : List RFile} {d : Dir} (v : View crcOn fs d) {f : RFile} (h : f ∈ fs) :
    d.open_ f.id = .ok f.data := by
  unfold Dir.open_
  rw [v.files]
  have : ∀ (l : List RFile), l.Pairwise (fun f g => f.id < g.id) → f ∈ l →
      (l.map fun f => (f.id, f.data)).find? (fun x => x.1 == f.id) = some (f.id, f.data) := by
    intro l
    induction l with
    | nil => intro _ h; simp at h
    | cons g l ih =>
      intro hp hm
      simp only [List.pairwise_cons] at hp
      simp only [List.map_cons, List.find?_cons]
      rcases List.mem_cons.1 hm with rfl | hm
      · simp
      · have := hp.1 f hm
        rw [show (g.id == f.id) = false by simp; omega]
        exact ih hp.2 hm
  rw [this fs v.asc h]

/-- The cursor stands before the records `l`. -/
def Tail (fs : List RFile) (c : Cursor) (l : List R) : Prop :=
  ∃ fs1 f fs2 done todo, fs = fs1 ++ f :: fs2 ∧ f.recs = done ++ todo ∧ c.file = some (f.id, f.data) ∧
    c.offset = (flat done).length ∧ l = todo ++ fs2.flatMap (·.recs)

/-- The cursor has just read `r`. -/
def Just (c : Cursor) (r : R) : Prop := c.buf = r.bytes ∧ r.bytes.length ≤ c.offset

theorem next_spec {crcOn : Bool} {fs : List RFile} {d : Dir} (v : View crcOn fs d) :
    ∀ (fs2 fs1 : List RFile) (f : RFile) (done todo : List R) (c : Cursor) (fuel : Nat),
    fs = fs1 ++ f :: fs2 → f.recs = done ++ todo → c.file = some (f.id, f.data) → c.offset = (flat done).length →
    fs2.length < fuel →
    match todo ++ fs2.flatMap (·.recs) with
    | [] => ∃ c', Cursor.next crcOn d fuel c = .ok (false, c') ∧ Tail fs c' []
    | r :: l => ∃ c', Cursor.next crcOn d fuel c = .ok (true, c') ∧ Just c' r ∧ Tail fs c' l ∧
        Tail fs { c' with offset := c'.offset - r.bytes.length } (r :: l) := by
  intro fs2
  induction fs2 with
  | nil =>
    intro fs1 f done todo c fuel hfs hrecs hfile hoff hfuel
    have hm : f ∈ fs := by rw [hfs]; simp
    obtain ⟨fuel, rfl⟩ : ∃ n, fuel = n + 1 := ⟨fuel - 1, by simp at hfuel; omega⟩
    have hsmall := v.small f hm
    have hdata : f.data = flat done ++ flat todo ++ f.torn := by simp [RFile.data, flat, hrecs]
    cases todo with
    | nil =>
      simp only [List.flatMap_nil, List.append_nil]
      have e0 : f.data = flat done ++ f.torn := by rw [hdata]; simp [flat]
      have hp : Wal.pread crcOn f.data c.offset = .ok none := by
        rw [e0, hoff]
        exact torn_none (v.torn f hm) (by rw [e0, List.length_append] at hsmall; exact hsmall)
      refine ⟨c, ?_, fs1, f, [], done, [], hfs, hrecs, hfile, hoff, by simp⟩
      simp only [Cursor.next, hfile, hp, Res.bind_ok]
      rw [if_pos]
      rw [v.list, hfs]
      exact idNext_spec fs1 f [] (hfs ▸ v.asc)
    | cons r todo =>
      simp only [List.flatMap_nil, List.append_nil]
      have hr := v.recs f hm r (by rw [hrecs]; simp)
      have e0 : f.data = flat done ++ r.bytes ++ (flat todo ++ f.torn) := by rw [hdata]; simp [flat]
      have hp : Wal.pread crcOn f.data c.offset = .ok (some r.bytes) := by
        rw [e0, hoff]
        refine hr.read _ _ ?_
        rw [e0, List.length_append, List.length_append] at hsmall
        omega
      obtain ⟨w, hw, hws, _⟩ := hr.head
      refine ⟨{ c with offset := c.offset + w.size, buf := r.bytes }, ?_, ⟨rfl, by dsimp only; omega⟩, ?_, ?_⟩
      · simp only [Cursor.next, hfile, hp, Res.bind_ok, hw]
      · exact ⟨fs1, f, [], done ++ [r], todo, hfs, by simp [hrecs], hfile,
          by simp only [flat, List.flatMap_append, List.flatMap_cons, List.flatMap_nil, List.append_nil,
              List.length_append] at hoff ⊢
             omega, by simp⟩
      · exact ⟨fs1, f, [], done, r :: todo, hfs, hrecs, hfile, by dsimp only; omega, by simp⟩
  | cons g fs2 ih =>
    intro fs1 f done todo c fuel hfs hrecs hfile hoff hfuel
    have hm : f ∈ fs := by rw [hfs]; simp
    have hg : g ∈ fs := by rw [hfs]; simp
    obtain ⟨fuel, rfl⟩ : ∃ n, fuel = n + 1 := ⟨fuel - 1, by simp at hfuel; omega⟩
    have hsmall := v.small f hm
    have hdata : f.data = flat done ++ flat todo ++ f.torn := by simp [RFile.data, flat, hrecs]
    cases todo with
    | nil =>
      have e0 : f.data = flat done ++ f.torn := by rw [hdata]; simp [flat]
      have hp : Wal.pread crcOn f.data c.offset = .ok none := by
        rw [e0, hoff]
        exact torn_none (v.torn f hm) (by rw [e0, List.length_append] at hsmall; exact hsmall)
      have hn : Cursor.next crcOn d (fuel + 1) c =
          Cursor.next crcOn d fuel { c with file := some (g.id, g.data), offset := 0 } := by
        have hid : idNext d.list f.id = g.id := by
          rw [v.list, hfs]; exact idNext_spec fs1 f (g :: fs2) (hfs ▸ v.asc)
        have hlt := v.lt g hg
        rw [Cursor.next]
        simp only [hfile, hp, Res.bind_ok, hid]
        rw [if_neg (by omega), open_spec v hg]
        rfl
      rw [hn]
      have := ih (fs1 ++ [f]) g [] g.recs { c with file := some (g.id, g.data), offset := 0 } fuel
        (by rw [hfs]; simp) (by simp) rfl (by simp [flat]) (by simp at hfuel; omega)
      simpa using this
    | cons r todo =>
      simp only [List.cons_append]
      have hr := v.recs f hm r (by rw [hrecs]; simp)
      have e0 : f.data = flat done ++ r.bytes ++ (flat todo ++ f.torn) := by rw [hdata]; simp [flat]
      have hp : Wal.pread crcOn f.data c.offset = .ok (some r.bytes) := by
        rw [e0, hoff]
        refine hr.read _ _ ?_
        rw [e0, List.length_append, List.length_append] at hsmall
        omega
      obtain ⟨w, hw, hws, _⟩ := hr.head
      refine ⟨{ c with offset := c.offset + w.size, buf := r.bytes }, ?_, ⟨rfl, by dsimp only; omega⟩, ?_, ?_⟩
      · simp only [Cursor.next, hfile, hp, Res.bind_ok, hw]
      · exact ⟨fs1, f, g :: fs2, done ++ [r], todo, hfs, by simp [hrecs], hfile,
          by simp only [flat, List.flatMap_append, List.flatMap_cons, List.flatMap_nil, List.append_nil,
              List.length_append] at hoff ⊢
             omega, rfl⟩
      · exact ⟨fs1, f, g :: fs2, done, r :: todo, hfs, hrecs, hfile, by dsimp only; omega, rfl⟩

theorem next_nil {crcOn : Bool} {fs : List RFile} {d : Dir} (v : View crcOn fs d) {c : Cursor} (h : Tail fs c []) :
    ∃ c', Cursor.next crcOn d (d.list.length + 1) c = .ok (false, c') ∧ Tail fs c' [] := by
  obtain ⟨fs1, f, fs2, done, todo, h1, h2, h3, h4, h5⟩ := h
  have hl : fs2.length < d.list.length + 1 := by rw [v.list, h1]; simp; omega
  have := next_spec v fs2 fs1 f done todo c _ h1 h2 h3 h4 hl
  rw [← h5] at this
  exact this

theorem next_cons {crcOn : Bool} {fs : List RFile} {d : Dir} (v : View crcOn fs d) {c : Cursor} {r : R} {l : List R}
    (h : Tail fs c (r :: l)) :
    ∃ c', Cursor.next crcOn d (d.list.length + 1) c = .ok (true, c') ∧ Just c' r ∧ Tail fs c' l ∧
        Tail fs { c' with offset := c'.offset - r.bytes.length } (r :: l) := by
  obtain ⟨fs1, f, fs2, done, todo, h1, h2, h3, h4, h5⟩ := h
  have hl : fs2.length < d.list.length + 1 := by rw [v.list, h1]; simp; omega
  have := next_spec v fs2 fs1 f done todo c _ h1 h2 h3 h4 hl
  rw [← h5] at this
  exact this

theorem tail_rec {crcOn : Bool} {fs : List RFile} {d : Dir} (v : View crcOn fs d) {c : Cursor} {l : List R}
    (h : Tail fs c l) : ∀ r ∈ l, IsRec crcOn r.bytes r.entry := by
  obtain ⟨fs1, f, fs2, done, todo, h1, h2, h3, h4, h5⟩ := h
  intro r hr
  rw [h5] at hr
  rcases List.mem_append.1 hr with hr | hr
  · exact v.recs f (by rw [h1]; simp) r (by rw [h2]; simp [hr])
  · obtain ⟨g, hg, hr⟩ := List.mem_flatMap.1 hr
    exact v.recs g (by rw [h1]; simp [hg]) r hr

theorem drain_spec {crcOn : Bool} {fs : List RFile} {d : Dir} (v : View crcOn fs d) :
    ∀ (l : List R) (c : Cursor) (fuel : Nat), Tail fs c l → l.length < fuel →
    Cursor.drain crcOn d fuel c = .ok (l.map (·.entry.record)) := by
  intro l
  induction l with
  | nil =>
    intro c fuel h hf
    obtain ⟨fuel, rfl⟩ : ∃ n, fuel = n + 1 := ⟨fuel - 1, by simp at hf; omega⟩
    obtain ⟨c', h1, _⟩ := next_nil v h
    simp only [Cursor.drain, h1, Res.bind_ok, List.map_nil]
  | cons r l ih =>
    intro c fuel h hf
    obtain ⟨fuel, rfl⟩ : ∃ n, fuel = n + 1 := ⟨fuel - 1, by simp at hf; omega⟩
    obtain ⟨c', h1, h2, h3, _⟩ := next_cons v h
    have hd := (tail_rec v h r (by simp)).dec
    simp only [Cursor.drain, h1, Res.bind_ok]
    rw [h2.1, hd]
    simp only [Res.bind_ok]
    rw [ih c' fuel h3 (by simp at hf; omega)]
    rfl

theorem rewind_spec {crcOn : Bool} {fs : List RFile} {d : Dir} (v : View crcOn fs d) (lsn : Nat) :
    ∀ (l : List R) (c : Cursor) (fuel : Nat), Tail fs c l → l.length < fuel →
    l.Pairwise (fun a b => a.entry.lsn < b.entry.lsn) →
    ∃ c', Cursor.rewind crcOn d lsn fuel c = .ok c' ∧ Tail fs c' (l.filter fun r => lsn ≤ r.entry.lsn) := by
  intro l
  induction l with
  | nil =>
    intro c fuel h hf _
    obtain ⟨fuel, rfl⟩ : ∃ n, fuel = n + 1 := ⟨fuel - 1, by simp at hf; omega⟩
    obtain ⟨c', h1, h2⟩ := next_nil v h
    exact ⟨c', by simp only [Cursor.rewind, h1, Res.bind_ok], by simpa using h2⟩
  | cons r l ih =>
    intro c fuel h hf hp
    obtain ⟨fuel, rfl⟩ : ∃ n, fuel = n + 1 := ⟨fuel - 1, by simp at hf; omega⟩
    obtain ⟨c', h1, h2, h3, h4⟩ := next_cons v h
    obtain ⟨w, hw, hws, hwl⟩ := (tail_rec v h r (by simp)).head
    rw [List.pairwise_cons] at hp
    simp only [Cursor.rewind, h1, Res.bind_ok]
    rw [h2.1, hw]
    simp only [Res.bind_ok]
    by_cases hl : w.lsn ≥ lsn
    · rw [if_pos hl]
      refine ⟨_, rfl, ?_⟩
      rw [hws]
      have : (r :: l).filter (fun r => decide (lsn ≤ r.entry.lsn)) = r :: l := by
        rw [List.filter_eq_self]
        intro x hx
        rcases List.mem_cons.1 hx with rfl | hx
        · simp; omega
        · have := hp.1 x hx; simp; omega
      rw [this]
      exact h4
    · rw [if_neg hl, List.filter_cons_of_neg (by simp; omega)]
      exact ih c' fuel h3 (by simp at hf; omega) hp.2

/-! From the files of the specification to records. -/

theorem content_recs {crcOn : Bool} : ∀ (es : List Entry), (∀ e ∈ es, e.Good crcOn) →
    ∃ rs : List R, rs.map (·.entry) = es ∧ (∀ r ∈ rs, IsRec crcOn r.bytes r.entry) ∧
      content crcOn es = .ok (flat rs) := by
  intro es
  induction es with
  | nil => intro _; exact ⟨[], rfl, by simp, rfl⟩
  | cons e es ih =>
    intro h
    obtain ⟨rs, h1, h2, h3⟩ := ih fun e he => h e (by simp [he])
    obtain ⟨b, hb, hr⟩ := entry_rec (h e (by simp))
    refine ⟨⟨b, e⟩ :: rs, by simp [h1], ?_, ?_⟩
    · intro r hr'
      rcases List.mem_cons.1 hr' with rfl | hr'
      · exact hr
      · exact h2 r hr'
    · simp only [content, hb, h3, Res.bind_ok]
      simp [flat]

theorem view_of {crcOn : Bool} : ∀ (fs : List LogFile) (d : Dir), LogWF crcOn fs → Holds crcOn fs d → Small d →
    ∃ rs : List RFile, View crcOn rs d ∧ rs.map (·.id) = fs.map (·.id) ∧
      rs.flatMap (fun f => f.recs.map (·.entry)) = entriesOf fs ∧
      ∀ f ∈ rs, ∃ g ∈ fs, f.id = g.id ∧ f.recs.map (·.entry) = g.entries := by
  intro fs
  induction fs with
  | nil =>
    intro d _ hd _
    exact ⟨[], ⟨by simp [hd.1], by simp [hd.2], by simp, by simp, by simp, by simp, by simp⟩, by simp, by simp [entriesOf],
      by simp⟩
  | cons f fs ih =>
    intro d hwf hd hs
    obtain ⟨d', bs, h1, h2, h3, h4⟩ := hd
    obtain ⟨⟨hp, ho⟩, hg⟩ := hwf
    rw [List.pairwise_cons] at hp
    obtain ⟨rs, v, hid, hen, hmem⟩ := ih d' ⟨⟨hp.2, fun g hg => ho g (by simp [hg])⟩, fun g hg' => hg g (by simp [hg'])⟩ h1
      (fun g hg => hs g (by rw [h4]; simp [hg]))
    obtain ⟨recs, e1, e2, e3⟩ := content_recs f.entries (hg f (by simp)).1
    rw [h2] at e3
    have e3 := Res.ok.inj e3
    subst e3
    refine ⟨⟨f.id, recs, f.torn⟩ :: rs, ⟨?_, ?_, ?_, ?_, ?_, ?_, ?_⟩, ?_, ?_, ?_⟩
    · rw [h3, v.list]; rfl
    · rw [h4, v.files]; rfl
    · rw [List.pairwise_cons]
      refine ⟨fun g hg => ?_, v.asc⟩
      have : g.id ∈ fs.map (·.id) := by rw [← hid]; exact List.mem_map_of_mem hg
      obtain ⟨g', hg', e⟩ := List.mem_map.1 this
      have := (hp.1 g' hg').1
      dsimp only; omega
    · intro g hg'
      rcases List.mem_cons.1 hg' with rfl | hg'
      · exact (ho f (by simp)).1
      · exact v.lt g hg'
    · intro g hg' r hr
      rcases List.mem_cons.1 hg' with rfl | hg'
      · exact e2 r hr
      · exact v.recs g hg' r hr
    · intro g hg'
      rcases List.mem_cons.1 hg' with rfl | hg'
      · exact (hg f (by simp)).2
      · exact v.torn g hg'
    · intro g hg'
      rcases List.mem_cons.1 hg' with rfl | hg'
      · exact hs (f.id, flat recs ++ f.torn) (by rw [h4]; simp)
      · exact v.small g hg'
    · simp [hid]
    · simp only [List.flatMap_cons, e1, hen, entriesOf]
    · intro g hg'
      rcases List.mem_cons.1 hg' with rfl | hg'
      · exact ⟨f, by simp, rfl, e1⟩
      · obtain ⟨g', a, b⟩ := hmem g hg'
        exact ⟨g', by simp [a], b⟩

theorem ordered_lsn : ∀ (fs : List LogFile), Ordered fs → (entriesOf fs).Pairwise (fun a b => a.lsn < b.lsn) := by
  intro fs
  induction fs with
  | nil => intro _; simp [entriesOf]
  | cons f fs ih =>
    intro h
    obtain ⟨hp, ho⟩ := h
    rw [List.pairwise_cons] at hp
    simp only [entriesOf, List.flatMap_cons, List.pairwise_append]
    refine ⟨(ho f (by simp)).2.1, ih ⟨hp.2, fun g hg => ho g (by simp [hg])⟩, ?_⟩
    intro a ha b hb
    obtain ⟨g, hg, hb⟩ := List.mem_flatMap.1 hb
    have h1 := (hp.1 g hg).2 a ha
    have h2 := (ho g (by simp [hg])).2.2 b hb
    omega

/-- Where wal_id_find leads. -/
theorem find_spec (lsn : Nat) : ∀ (l2 l1 : List RFile) (f : RFile),
    (l1 ++ f :: l2).Pairwise (fun f g => f.id < g.id) → f.id ≤ lsn →
    ∃ m1 g m2, l1 ++ f :: l2 = m1 ++ g :: m2 ∧ findLoop lsn (l2.map (·.id)) f.id = g.id ∧ g.id ≤ lsn := by
  intro l2
  induction l2 with
  | nil => intro l1 f _ h; exact ⟨l1, f, [], rfl, rfl, h⟩
  | cons g l2 ih =>
    intro l1 f hp h
    simp only [List.map_cons, findLoop]
    by_cases hg : g.id > lsn
    · rw [if_pos hg]; exact ⟨l1, f, g :: l2, rfl, rfl, h⟩
    · rw [if_neg hg]
      obtain ⟨m1, g', m2, e, h1, h2⟩ := ih (l1 ++ [f]) g (by simpa using hp) (by omega)
      exact ⟨m1, g', m2, by simpa using e, h1, h2⟩

theorem read_spec {crcOn : Bool} {fs : List LogFile} {d : Dir} {lsn : Nat} (hwf : LogWF crcOn fs)
    (hd : Holds crcOn fs d) (hs : Small d) (hl : lsn = 0 ∨ ∀ f ∈ fs.head?, f.id ≤ lsn) :
    ReadsFrom crcOn fs d lsn := by
  intro fuel hfuel
  obtain ⟨rs, v, hid, hen, hmem⟩ := view_of fs d hwf hd hs
  have hasc := ordered_lsn fs hwf.1
  have hall : rs.flatMap (·.recs.map (·.entry)) = (rs.flatMap (·.recs)).map (·.entry) := by
    rw [List.map_flatMap]
  rw [hall] at hen
  unfold readLog Cursor.open_
  cases rs with
  | nil =>
    have hnil : d.list = [] := by rw [v.list]; rfl
    have h0 : (if lsn = 0 then idMin d.list else idFind d.list lsn) = 18446744073709551615 := by
      rw [hnil]; split <;> rfl
    dsimp only
    rw [if_pos h0]
    simp only [Res.bind_ok]
    rw [← hen]
    obtain ⟨fuel, rfl⟩ : ∃ n, fuel = n + 1 := ⟨fuel - 1, by omega⟩
    simp [Cursor.drain, Cursor.next]
  | cons f0 rs =>
    -- the file where reading starts
    have hstart : ∃ m1 g m2, f0 :: rs = m1 ++ g :: m2 ∧
        (if lsn = 0 then idMin d.list else idFind d.list lsn) = g.id ∧ (m1 = [] ∨ g.id ≤ lsn) := by
      rw [v.list]
      by_cases h0 : lsn = 0
      · exact ⟨[], f0, rs, rfl, by rw [if_pos h0]; rfl, .inl rfl⟩
      · rw [if_neg h0]
        have h1 : f0.id ≤ lsn := by
          rcases hl with hl | hl
          · exact absurd hl h0
          · cases fs with
            | nil => simp at hid
            | cons f1 fs =>
              simp only [List.map_cons, List.cons.injEq] at hid
              have := hl f1 (by simp)
              omega
        have := find_spec lsn rs [] f0 (by simpa using v.asc) h1
        obtain ⟨m1, g, m2, e, h2, h3⟩ := this
        refine ⟨m1, g, m2, by simpa using e, ?_, .inr h3⟩
        simp only [idFind, List.map_cons, findLoop]
        rw [if_neg (by omega)]
        exact h2
    obtain ⟨m1, g, m2, e, hg, hle⟩ := hstart
    have hgm : g ∈ f0 :: rs := by rw [e]; simp
    have hlt := v.lt g hgm
    dsimp only
    rw [hg, if_neg (by omega), open_spec v hgm]
    simp only [Res.bind_ok]
    have ht : Tail (f0 :: rs) ⟨some (g.id, g.data), 0, []⟩ (g.recs ++ m2.flatMap (·.recs)) :=
      ⟨m1, g, m2, [], g.recs, e, rfl, rfl, rfl, rfl⟩
    -- all records are those before and those from there on
    have hsplit : (m1.flatMap (·.recs)).map (·.entry) ++ (g.recs ++ m2.flatMap (·.recs)).map (·.entry) = entriesOf fs := by
      rw [← hen, e]; simp
    have hlen : (g.recs ++ m2.flatMap (·.recs)).length ≤ (entriesOf fs).length := by
      rw [← hsplit]; simp
    have hpw : (g.recs ++ m2.flatMap (·.recs)).Pairwise (fun a b => a.entry.lsn < b.entry.lsn) := by
      have := hasc
      rw [← hsplit, List.pairwise_append] at this
      have h := this.2.1
      rw [List.pairwise_map] at h
      exact h
    obtain ⟨c', h1, h2⟩ := rewind_spec v lsn _ _ fuel ht (by omega) hpw
    rw [h1]
    simp only [Res.bind_ok]
    rw [drain_spec v _ c' fuel h2 (by
      have := List.length_filter_le (fun r : R => decide (lsn ≤ r.entry.lsn)) (g.recs ++ m2.flatMap (·.recs))
      omega)]
    congr 1
    rw [← hsplit, List.filter_append (l₁ := (m1.flatMap (·.recs)).map (·.entry))]
    have hbefore : ((m1.flatMap (·.recs)).map (·.entry)).filter (fun e => decide (lsn ≤ e.lsn)) = [] := by
      rw [List.filter_eq_nil_iff]
      intro x hx
      rcases hle with rfl | hle
      · simp at hx
      · obtain ⟨r, hr, rfl⟩ := List.mem_map.1 hx
        obtain ⟨f, hf, hr⟩ := List.mem_flatMap.1 hr
        have hfg : r.entry.lsn < g.id := by
          -- by the order of the files
          obtain ⟨a, b, hab⟩ := List.append_of_mem hf
          have hids : fs.map (·.id) = (a ++ f :: b ++ g :: m2).map (·.id) := by
            rw [← hid, e, hab]
          obtain ⟨f', hf', ef1, ef2⟩ := hmem f (by rw [e, hab]; simp)
          obtain ⟨g', hg', eg1, eg2⟩ := hmem g hgm
          have hre : r.entry ∈ f'.entries := by rw [← ef2]; exact List.mem_map_of_mem hr
          have hlt : f.id < g.id := by
            have := v.asc
            rw [e, hab, List.pairwise_append] at this
            exact this.2.2 f (by simp) g (by simp)
          have hord := hwf.1.1
          rcases List.mem_iff_getElem.1 hf' with ⟨i, hi, ei⟩
          rcases List.mem_iff_getElem.1 hg' with ⟨j, hj, ej⟩
          rw [List.pairwise_iff_getElem] at hord
          rcases Nat.lt_trichotomy i j with hij | hij | hij
          · have := (hord i j hi hj hij).2 r.entry (by rw [ei]; exact hre)
            rw [ej] at this; omega
          · subst hij; rw [ei] at ej; subst ej; omega
          · have := (hord j i hj hi hij).1
            rw [ei, ej] at this; omega
        simp; omega
    rw [hbefore, List.nil_append, List.filter_map, List.map_map]
    rfl

end Verif.C22
