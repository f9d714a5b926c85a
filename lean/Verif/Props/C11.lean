import Verif.Proofs.C11
import Verif.Props.C13

/-! C11: a full scan returns exactly the live events in ascending order. -/
namespace Verif.C11
open Spec Cursor Io

/-- Partial: for every history of created and dropped partitions and every content
within the limits of C03 (ranges below 2^63 and less than 2^31 from each other),
C07 (tables of one page or that grow at the end) and C15, a full scan ends and
returns the live events of all partitions, each key once, in order.  Missing:
contents outside these limits, and ranges that reach the end of the id space,
where the scan never ends (see C11_scan_false). -/
theorem C11_scan_partial (sp ss : Nat) (h1 : 0 < ss) (h2 : ss < sp) (cs : Codecs) (mc : MemCmp)
    (ops : List (C03.Op CPart)) (ct : Slice CPart → Content) (hleg : C03.Legal Close [] ops)
    (hgap : NoBigGap (C03.refRun [] ops)) (hold : Holds cs mc sp ss (C03.refRun [] ops) ct)
    (ht : ∀ s ∈ C03.refRun [] ops, TameContent sp ss (ct s)) :
    ∃ db, C03.run Mapping.init ops = .ok db ∧ Returns cs mc db none (C03.refRun [] ops) ct fun _ => True := by
  obtain ⟨db, L, e1, hdb, hL⟩ := C03.run_inv ops Mapping.init [] [] Mapping.inv_init (by simp)
    (legal_mono (fun S s h => ⟨by have := h.1; omega, h.2⟩) ops [] hleg)
  have hmax := legal_all (P := fun s => s.max + 1 < 9223372036854775808) (fun S s h => h.1) ops [] (by simp) hleg
  refine ⟨db, e1, ?_⟩
  obtain ⟨c, Ms, k1, k2, k3⟩ := raw_from (cs := cs) (mc := mc) hdb (fun s hs => hmax s ((hL s).1 hs))
    (fun s hs => C03.near_congr hL (hgap.2 s ((hL s).1 hs)))
    (G := fun s M => s ∈ L ∧ Ascending M ∧ ∀ x, x ∈ M ↔ (ct s).current x = some x)
    (fun s hs => by
      have hs' := (hL s).1 hs
      obtain ⟨mi, M, g1, g2, g3⟩ := open_all h1 h2 (hold s hs').1 (hold s hs').2 (ht s hs') (by
        have := hmax s hs'; omega)
      exact ⟨mi, M, g1, ⟨hs, g2⟩, g3⟩)
    L [] 0 rfl (by simp) (by simp) (by decide) (C03.near_congr hL hgap.1)
  have hop : open_ cs mc db none = .ok c ∨ (∃ c0, open_ cs mc db none = .ok c0 ∧ ∃ M l, Ms = [] :: M ∧ l = M.flatMap shown ∧
      Raw cs mc db c0 l) := by
    unfold open_
    dsimp only
    rw [k1, Res.bind_ok]
    by_cases hh : c.ref.isSome = true ∧ c.cursor.has = false
    · rw [if_pos hh]
      right
      cases Ms with
      | nil =>
        have := k3.1
        unfold has at this
        rw [this] at hh; exact absurd hh.1 (by simp)
      | cons M Ms =>
        rw [List.flatMap_cons] at k3
        cases M with
        | cons e M =>
          have hat : at_ cs mc c = .ok (some e) := by
            have : Raw cs mc db c (some e :: (M.map some ++ Ms.flatMap shown)) := by
              simpa [shown] using k3
            exact this.2.1
          unfold at_ Merge.at' at hat
          have hc := hh.2
          unfold Merge.has at hc
          cases hcc : c.cursor.current with
          | none => rw [hcc] at hat; cases hat
          | some i => rw [hcc] at hc; cases hc
        | nil =>
          obtain ⟨_, _, c', n1, n2⟩ := k3
          exact ⟨c', n1, Ms, _, rfl, rfl, n2⟩
    · rw [if_neg hh]
      exact .inl rfl
  have hres : ∃ n, ∀ fuel ≥ n, scan cs mc db fuel none = .ok (some (Ms.flatten.filter fun e => !e.isDelete)) := by
    rcases hop with hop | ⟨c0, hop, M, l, rfl, rfl, hr⟩
    · exact ⟨_, by rw [← alive_flatMap]; exact scan_of_raw hop k3⟩
    · refine ⟨(M.flatMap shown).length + 1, ?_⟩
      rw [List.flatten_cons, List.nil_append, ← alive_flatMap]
      exact scan_of_raw hop hr
  refine ⟨_, ?_, fun x => ?_, hres⟩
  · refine List.Pairwise.filter _ (ascending_all2 (fun s M h => ⟨h.2.1, fun x hx => ?_⟩) ?_ k2)
    · exact (hold s ((hL s).1 h.1)).2.covered x (current_mem ((h.2.2 x).1 hx))
    · exact hdb.sorted.1
  · obtain ⟨m1, m2⟩ := mem_all2 k2
    rw [List.mem_filter, List.mem_flatten]
    constructor
    · rintro ⟨⟨M, hM, hx⟩, hd⟩
      obtain ⟨s, hs, hg⟩ := m1 M hM
      exact ⟨⟨by simpa using hd, s, (hL s).1 hs, (hg.2.2 x).1 hx⟩, trivial⟩
    · rintro ⟨⟨hd, s, hs, hc⟩, _⟩
      obtain ⟨M, hM, hg⟩ := m2 s ((hL s).2 hs)
      exact ⟨⟨M, hM, (hg.2.2 x).2 hc⟩, by simpa using hd⟩

/-- No compression, no encryption. -/
def plain : Codecs := ⟨fun _ => none, fun _ => none⟩

/-- An event, and the table that holds it. -/
def ev : Event := ⟨5, 0, [], [7]⟩
def tab : Memtable :=
  { tree := .node .black .nil ⟨0, [ev]⟩ .nil, sizePage := 512, sizeSplit := 508, countPages := 1, count := 1,
    lsnMin := 18446744073709551615, lsnMax := 0, iters := [], nextPid := 1 }

/-- The partition of all ids (CREATE PARTITION FROM 0 TO the largest id). -/
def whole : Slice CPart := ⟨0, 18446744073709551615, ⟨tab, Memtable.init 512 508, none⟩⟩
def wholeDb : Mapping CPart := ⟨.node .black .nil whole .nil, 1⟩

/-- The cursor on the event. -/
def onEv : ECursor := ⟨some whole, ⟨[⟨.mem tab ⟨some ev, some 0, 0⟩, true⟩], some 0⟩⟩

theorem onEv_open : open_ plain memCmpStd wholeDb none = .ok onEv := rfl

/-- After the only event the cursor is on it again: the end of the range plus one
is 0. -/
theorem C11_scan_restarts : next plain memCmpStd wholeDb onEv = .ok onEv := rfl

theorem onEv_read (fuel : Nat) : ∀ n, readAll plain memCmpStd wholeDb fuel n onEv = .ok none
  | 0 => rfl
  | n + 1 => by
    have hat : at_ plain memCmpStd onEv = .ok (some ev) := rfl
    unfold readAll
    rw [hat, Res.bind_ok]
    dsimp only
    rw [if_neg (by decide)]
    unfold step
    rw [C11_scan_restarts, Res.bind_ok]
    cases fuel with
    | zero => rfl
    | succ f =>
      have : skip plain memCmpStd wholeDb (f + 1) onEv = .ok (some onEv) := rfl
      rw [this, Res.bind_ok]
      dsimp only
      rw [onEv_read (f + 1) n]
      rfl

/-- False of the code: with one event in a partition that reaches the end of the
id space the scan never ends. -/
theorem C11_scan_false : ¬ Full 512 508 := by
  intro h
  obtain ⟨M, _, _, n, hn⟩ := h plain memCmpStd [.add whole] wholeDb (fun _ => ⟨[ev], [], none⟩)
    ⟨by decide, by decide, by simp, trivial, trivial⟩ rfl (by
      intro s hs
      simp only [C03.refRun, C03.refStep, List.mem_singleton] at hs
      subst hs
      refine ⟨⟨⟨_, rfl⟩, ⟨_, rfl⟩, trivial⟩, ?_, ?_, by simp [Content.stored, Ascending]⟩
      · simp [Content.all, Content.stored, ev, WF]
      · simp [Content.all, Content.stored, ev, Covers, whole])
  have h1 := hn (n + 1) (by omega)
  have h2 : scan plain memCmpStd wholeDb (n + 1) none = .ok none := by
    unfold scan cursor
    rw [onEv_open, Res.bind_ok]
    have : skip plain memCmpStd wholeDb (n + 1) onEv = .ok (some onEv) := rfl
    rw [this, Res.bind_ok]
    exact onEv_read (n + 1) (n + 1)
  rw [h2] at h1
  cases h1

/-- An empty partition that reaches the end of the id space: opening a cursor
does not return. -/
theorem C11_open_hangs (fuel : Nat) :
    cursor plain memCmpStd ⟨.node .black .nil ⟨0, 18446744073709551615, ⟨Memtable.init 512 508, Memtable.init 512 508, none⟩⟩ .nil, 1⟩
      fuel none = .ok none := by
  have hn : ∀ n, skip plain memCmpStd
      ⟨.node .black .nil ⟨0, 18446744073709551615, ⟨Memtable.init 512 508, Memtable.init 512 508, none⟩⟩ .nil, 1⟩ n
      ⟨some ⟨0, 18446744073709551615, ⟨Memtable.init 512 508, Memtable.init 512 508, none⟩⟩, ⟨[], none⟩⟩ = .ok none := by
    intro n
    induction n with
    | zero => rfl
    | succ n ih => exact ih
  exact hn fuel

/-- A file of the ids 3 and 8, and the state of a table after two writes. -/
def src : WriterSource := { region_size := 40, crc := true, compression := 0, encryption := 0 }
def arg : IndexWriter.StopArg :=
  { id_min := 0, id_max := 99, refreshes := 1, time_create := 0, time_refresh := 0, lsn := 7, compression := 0, encryption := 0 }
def two : List EventMem := [⟨⟨3, 0, [5], [1, 2]⟩, [9]⟩, ⟨⟨8, 0, [], [7, 7, 7]⟩, []⟩]

theorem two_file : ∃ f, FileOf plain two f := by
  obtain ⟨w, hw⟩ := write_safe (cs := plain) (s := src) arg (ms := two) (by intro e he; simp [src] at he)
    (by simp [two, WF]) (by decide) (by decide)
  have hlen : w.file.length < 4294967296 := by
    have : (match writeFile plain src arg two with
      | .ok w => w.file.length < 400
      | _ => false) = true := by decide +kernel
    rw [hw] at this
    simp only [decide_eq_true_eq] at this
    omega
  have hg : C15.NoGrowth plain src two w.index_writer.data := ⟨fun _ _ _ => trivial, trivial⟩
  obtain ⟨_, p, _, _, h3, _⟩ := written_open hw (by simp [two, WF]) hlen (by simp [ArgWF, arg, src]) hg.1 hg.2
  exact ⟨p, src, arg, w, hw, h3, by simp [ArgWF, arg, src], hlen, hg⟩

/-- Writes to the tables of the first partition: id 3 is deleted, 4 was written
before the last refresh began. -/
def first : Content := ⟨[⟨3, 1, [5], []⟩], [⟨4, 0, [], [1]⟩, ⟨8, 0, [], [2]⟩], some two⟩
def second : Content := ⟨[⟨150, 0, [], [1]⟩, ⟨120, 0, [], []⟩], [], none⟩

theorem short_tame (es : List Event) (he : es.length ≤ 512) : C07.Tame 512 508 es := by
  intro pre e post hes
  left
  have hput : ∀ (L : List Event) (x : Event), (put x L).length ≤ L.length + 1 := by
    intro L x
    unfold put
    simp only [List.length_append, List.length_cons]
    induction L with
    | nil => simp
    | cons a L ih =>
      by_cases h1 : evCmp a x < 0
      · have h2 : ¬ evCmp a x > 0 := by omega
        simp [h1, h2] at ih ⊢; omega
      · by_cases h2 : evCmp a x > 0
        · simp [h1, h2] at ih ⊢; omega
        · simp [h1, h2] at ih ⊢; omega
  have htab : ∀ l : List Event, (C07.table l).length ≤ l.length := by
    intro l
    induction l using C07.list_snoc_ind with
    | h0 => simp [C07.table]
    | hs l x ih => rw [C07.table_snoc]; have := hput (C07.table l) x; simp; omega
  have := htab (pre ++ [e])
  have : es.length = pre.length + 1 + post.length := by rw [hes]; simp; omega
  simp at *; omega

/-- Two partitions, the second created first. -/
def sampleOps (f : PartFile) (m1 m2 m3 : Memtable) : List (C03.Op CPart) :=
  [.add ⟨100, 199, ⟨m3, Memtable.init 512 508, none⟩⟩, .add ⟨0, 99, ⟨m1, m2, some f⟩⟩]
def sampleCt (s : Slice CPart) : Content := if s.min = 0 then first else second

theorem sample_legal (f : PartFile) (m1 m2 m3 : Memtable) : C03.Legal Close [] (sampleOps f m1 m2 m3) ∧
    NoBigGap (C03.refRun [] (sampleOps f m1 m2 m3)) ∧
    ∀ s ∈ C03.refRun [] (sampleOps f m1 m2 m3), TameContent 512 508 (sampleCt s) := by
  refine ⟨?_, ?_, ?_⟩
  · simp [sampleOps, C03.Legal, C03.refStep, Apart, Close, Near]
  · simp [sampleOps, C03.refRun, C03.refStep, NoBigGap, Near]
  · intro s hs
    simp only [sampleOps, C03.refRun, C03.refStep, List.mem_cons, List.not_mem_nil, or_false] at hs
    rcases hs with rfl | rfl
    · exact ⟨⟨0, by simp [sampleCt, first, Content.all, Content.stored, two, Within]⟩,
        short_tame _ (by simp [sampleCt, first]), short_tame _ (by simp [sampleCt, first])⟩
    · exact ⟨⟨0, by simp [sampleCt, second, Content.all, Content.stored, Within]⟩,
        short_tame _ (by simp [sampleCt, second]), short_tame _ (by simp [sampleCt, second])⟩

theorem sample_holds : ∃ f m1 m2 m3,
    Holds plain memCmpStd 512 508 (C03.refRun [] (sampleOps f m1 m2 m3)) sampleCt := by
  obtain ⟨f, hf⟩ := two_file
  have t : ∀ es : List Event, es.length ≤ 2 → (∀ e ∈ es, Within 0 e) →
      ∃ m ps, C07.run memCmpStd (Memtable.init 512 508) es = .ok (m, ps) := fun es hl hw => by
    obtain ⟨m, ps, h, _⟩ := C07.run_tame memCmpStd (by decide) (by decide) 0 es hw (short_tame es (by omega))
    exact ⟨m, ps, h⟩
  obtain ⟨m1, p1, r1⟩ := t first.act (by decide) (by simp [first, Within])
  obtain ⟨m2, p2, r2⟩ := t first.prev (by decide) (by simp [first, Within])
  obtain ⟨m3, p3, r3⟩ := t second.act (by decide) (by simp [second, Within])
  refine ⟨f, m1, m2, m3, fun s hs => ?_⟩
  simp only [sampleOps, C03.refRun, C03.refStep, List.mem_cons, List.not_mem_nil, or_false] at hs
  rcases hs with rfl | rfl
  · refine ⟨⟨⟨p1, r1⟩, ⟨p2, r2⟩, hf⟩, ?_, ?_, ?_⟩
    · simp [sampleCt, first, Content.all, Content.stored, two, WF]
    · simp [sampleCt, first, Content.all, Content.stored, two, Covers]
    · simp [sampleCt, first, Content.stored, two, Ascending, evCmp, keyCmp, Event.pair]
  · refine ⟨⟨⟨p3, r3⟩, ⟨[], rfl⟩, trivial⟩, ?_, ?_, ?_⟩
    · simp [sampleCt, second, Content.all, Content.stored, WF]
    · simp [sampleCt, second, Content.all, Content.stored, Covers]
    · simp [sampleCt, second, Content.stored, Ascending]

/-- The hypotheses are met by two partitions with tables and a file: the full scan
returns four events. -/
example : ∃ f m1 m2 m3 db, C03.run Mapping.init (sampleOps f m1 m2 m3) = .ok db ∧
    ∃ n, ∀ fuel ≥ n, scan plain memCmpStd db fuel none =
      .ok (some [⟨4, 0, [], [1]⟩, ⟨8, 0, [], [2]⟩, ⟨120, 0, [], []⟩, ⟨150, 0, [], [1]⟩]) := by
  obtain ⟨f, m1, m2, m3, h⟩ := sample_holds
  obtain ⟨h1, h2, h3⟩ := sample_legal f m1 m2 m3
  obtain ⟨db, e, M, ha, hm, n, hn⟩ := C11_scan_partial 512 508 (by decide) (by decide) plain memCmpStd _ sampleCt h1 h2 h h3
  refine ⟨f, m1, m2, m3, db, e, n, fun fuel hf => ?_⟩
  rw [hn fuel hf]
  have hlive : ∀ x, x ∈ M ↔
      x ∈ [(⟨4, 0, [], [1]⟩ : Event), ⟨8, 0, [], [2]⟩, ⟨120, 0, [], []⟩, ⟨150, 0, [], [1]⟩] := by
    intro x
    rw [hm x]
    constructor
    · rintro ⟨⟨hd, s, hs, hc⟩, _⟩
      have hx := current_mem hc
      simp only [sampleOps, C03.refRun, C03.refStep, List.mem_cons, List.not_mem_nil, or_false] at hs
      rcases hs with rfl | rfl
      · simp only [sampleCt, if_true, Content.all, first, Content.stored, two, List.map_cons, List.map_nil,
          List.mem_append, List.mem_cons, List.not_mem_nil, or_false] at hx
        rcases hx with (rfl | rfl | rfl) | rfl | rfl
        · exact absurd hd (by decide)
        · simp
        · simp
        · exact absurd (show first.current _ = _ from hc) (by decide)
        · exact absurd (show first.current _ = _ from hc) (by decide)
      · simp only [sampleCt, if_neg (show ¬ (100 : Nat) = 0 by decide), Content.all, second, Content.stored,
          List.append_nil, List.mem_cons, List.not_mem_nil, or_false] at hx
        rcases hx with rfl | rfl <;> simp
    · intro hx
      simp only [List.mem_cons, List.not_mem_nil, or_false] at hx
      rcases hx with rfl | rfl | rfl | rfl
      · exact ⟨⟨rfl, ⟨0, 99, ⟨m1, m2, some f⟩⟩, by simp [sampleOps, C03.refRun, C03.refStep],
          show first.current _ = _ by decide⟩, trivial⟩
      · exact ⟨⟨rfl, ⟨0, 99, ⟨m1, m2, some f⟩⟩, by simp [sampleOps, C03.refRun, C03.refStep],
          show first.current _ = _ by decide⟩, trivial⟩
      · exact ⟨⟨rfl, ⟨100, 199, ⟨m3, Memtable.init 512 508, none⟩⟩, by simp [sampleOps, C03.refRun, C03.refStep],
          show second.current _ = _ by decide⟩, trivial⟩
      · exact ⟨⟨rfl, ⟨100, 199, ⟨m3, Memtable.init 512 508, none⟩⟩, by simp [sampleOps, C03.refRun, C03.refStep],
          show second.current _ = _ by decide⟩, trivial⟩
  rw [C13.ascending_unique ha (by simp [Ascending, evCmp, keyCmp, Event.pair]) hlive]

end Verif.C11
