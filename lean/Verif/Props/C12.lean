import Verif.Props.C11

/-! C12: a keyed cursor starts at the first live event at or after the key. -/
namespace Verif.C12
open Spec Cursor Io

theorem dropWhile_max {L : List (Slice CPart)} (h : L.Pairwise fun a b => a.max < b.min)
    (hw : ∀ s ∈ L, s.min ≤ s.max) (id : Nat) :
    ∀ u ∈ L.dropWhile fun s => decide (s.max < id), id ≤ u.max := by
  induction L with
  | nil => simp
  | cons s L ih =>
    obtain ⟨p1, p2⟩ := List.pairwise_cons.1 h
    by_cases hs : s.max < id
    · rw [List.dropWhile_cons_of_pos (by simpa using hs)]
      exact ih p2 fun u hu => hw u (by simp [hu])
    · rw [List.dropWhile_cons_of_neg (by simpa using hs)]
      intro u hu
      rcases List.mem_cons.1 hu with rfl | hu
      · omega
      · have := p1 u hu
        have := hw u (by simp [hu])
        omega

theorem takeWhile_max (L : List (Slice CPart)) (id : Nat) :
    ∀ u ∈ L.takeWhile fun s => decide (s.max < id), u.max < id := by
  intro u hu
  have := List.all_takeWhile (l := L) (p := fun s => decide (s.max < id))
  simpa using List.all_eq_true.1 this u hu

/-- Partial: for every history of partitions and every content within the limits
of C11, and every key within those of C08 for the tables of the partition in
which the cursor starts, the cursor returns exactly the live events at or after
the key, unless the key lies between the last event of an id and a later event
of the same file.  Missing: see C12_seek_false. -/
theorem C12_seek_partial (sp ss : Nat) (h1 : 0 < ss) (h2 : ss < sp) (cs : Codecs) (mc : MemCmp)
    (ops : List (C03.Op CPart)) (ct : Slice CPart → Content) (k : Event) (hleg : C03.Legal C11.Close [] ops)
    (hgap : C11.NoBigGap (C03.refRun [] ops)) (hold : Holds cs mc sp ss (C03.refRun [] ops) ct)
    (ht : ∀ s ∈ C03.refRun [] ops, C11.TameContent sp ss (ct s)) (hk : k.id < 9223372036854775808)
    (hkn : Near (C03.refRun [] ops) k.id)
    (hstart : ∀ s, IsGte (C03.refRun [] ops) k.id (some s) → TameStart sp ss (ct s) k) :
    ∃ db, C03.run Mapping.init ops = .ok db ∧
      Returns cs mc db (some k) (C03.refRun [] ops) ct fun x => evCmp k x ≤ 0 := by
  obtain ⟨db, L, e1, hdb, hL⟩ := C03.run_inv ops Mapping.init [] [] Mapping.inv_init (by simp)
    (legal_mono (fun S s h => ⟨by have := h.1; omega, h.2⟩) ops [] hleg)
  have hmax := legal_all (P := fun s => s.max + 1 < 9223372036854775808) (fun S s h => h.1) ops [] (by simp) hleg
  refine ⟨db, e1, ?_⟩
  have hopen : ∀ s ∈ L, ∃ mi M, partOpen cs mc s.val none = .ok mi ∧
      (s ∈ L ∧ Ascending M ∧ ∀ x, x ∈ M ↔ (ct s).current x = some x) ∧ MSteps mc (fns cs mc) mi M := by
    intro s hs
    have hs' := (hL s).1 hs
    obtain ⟨mi, M, g1, g2, g3⟩ := open_all h1 h2 (hold s hs').1 (hold s hs').2 (ht s hs') (by
      have := hmax s hs'; omega)
    exact ⟨mi, M, g1, ⟨hs, g2⟩, g3⟩
  have hcov : ∀ {s : Slice CPart} {x : Event}, s ∈ L → (ct s).current x = some x → Covers s x.id :=
    fun hs hx => (hold _ ((hL _).1 hs)).2.covered _ (current_mem hx)
  have hsplit := (List.takeWhile_append_dropWhile (p := fun s : Slice CPart => decide (s.max < k.id)) (l := L)).symm
  have hlo := takeWhile_max L k.id
  have hhi := dropWhile_max hdb.sorted.1 (fun s hs => (hdb.sorted.2 s hs).1) k.id
  generalize L.takeWhile (fun s => decide (s.max < k.id)) = lo at hsplit hlo
  generalize L.dropWhile (fun s => decide (s.max < k.id)) = hi at hsplit hhi
  obtain ⟨r, g1, g2, _⟩ := Mapping.gte_spec hdb k.id hk (C03.near_congr hL hkn)
  have hr := gte_split hdb.sorted hsplit hlo hhi g2
  -- events of the partitions before are below the key
  have hbelow : ∀ s ∈ lo, ∀ x, (ct s).current x = some x → ¬ evCmp k x ≤ 0 := by
    intro s hs x hx hle
    have h3 := hcov (s := s) (by rw [hsplit]; simp [hs]) hx
    have h4 := hlo s hs
    have h5 := evCmp_id_le hle
    unfold Covers at h3
    omega
  cases hi with
  | nil =>
    cases r with
    | some x => cases hr
    | none =>
      refine ⟨[], List.Pairwise.nil, fun x => ?_, 1, ?_⟩
      · simp only [List.not_mem_nil, false_iff, not_and]
        rintro ⟨_, s, hs, hx⟩
        have hs' := (hL s).2 hs
        rw [hsplit, List.append_nil] at hs'
        exact hbelow s hs' x hx
      · have hop : open_ cs mc db (some k) = .ok ⟨none, Merge.init⟩ := by
          unfold open_ openPart
          dsimp only
          rw [g1]
          rfl
        exact scan_of_raw (l := []) hop ⟨rfl, rfl⟩
  | cons s hi =>
    cases r with
    | none => cases hr
    | some y =>
      have hy : y.v = s := by simpa using hr
      have hsL : s ∈ L := by rw [hsplit]; simp
      have hs' := (hL s).1 hsL
      have hp := (hsplit ▸ hdb.sorted).parts
      have hgte : IsGte (C03.refRun [] ops) k.id (some s) := by
        have := C03.isGte_congr hL g2
        rw [Option.map_some, hy] at this
        exact this
      obtain ⟨mi, M, q1, ⟨q2, q2'⟩, q3⟩ := open_key h1 h2 (hold s hs').1 (hold s hs').2 (ht s hs').2.1 (ht s hs').2.2
        (by have := hmax s hs'; omega) hk (hstart s hgte)
      obtain ⟨c, Ms, k1, k2, k3⟩ := raw_from (cs := cs) (mc := mc) hdb (fun s hs => hmax s ((hL s).1 hs))
        (fun s hs => C03.near_congr hL (hgap.2 s ((hL s).1 hs))) hopen hi (lo ++ [s]) (s.max + 1)
        (by rw [hsplit]; simp)
        (by
          intro u hu
          rcases List.mem_append.1 hu with hu | hu
          · have := hp.1 u hu; omega
          · simp only [List.mem_singleton] at hu; subst hu; omega)
        (by intro u hu; have := hp.2.1 u hu; omega) (hmax s hs') (C03.near_congr hL (hgap.2 s hs'))
      have hw : wrapU64 ((s.max + 1 : Nat) : Int) = s.max + 1 := by
        have := hmax s hs'
        unfold wrapU64; omega
      have hop0 : openPart cs mc db k.id (some k) = .ok ⟨some s, mi⟩ := by
        unfold openPart
        rw [g1, Res.bind_ok]
        dsimp only
        rw [hy, q1]
        rfl
      have hres : ∃ n, ∀ fuel ≥ n, scan cs mc db fuel (some k) =
          .ok (some ((M ++ Ms.flatten).filter fun e => !e.isDelete)) := by
        have hal : alive (M.map some ++ Ms.flatMap shown) = (M ++ Ms.flatten).filter fun e => !e.isDelete := by
          rw [alive_append, alive_map, alive_flatMap, List.filter_append]
        rw [← hal]
        by_cases hM : M = []
        · subst hM
          have hop : open_ cs mc db (some k) = .ok c := by
            unfold open_
            dsimp only
            rw [hop0, Res.bind_ok, if_pos ⟨rfl, q3.has_nil⟩, next_empty q3, hw]
            exact k1
          exact ⟨_, scan_of_raw hop k3⟩
        · have hop : open_ cs mc db (some k) = .ok ⟨some s, mi⟩ := by
            unfold open_
            dsimp only
            rw [hop0, Res.bind_ok, if_neg]
            rintro ⟨_, hh⟩
            cases M with
            | nil => exact hM rfl
            | cons e M => have := q3.1; dsimp only at hh; rw [this] at hh; cases hh
          exact ⟨_, scan_of_raw hop (raw_part (by rw [hw]; exact k1) k3 M mi hM q3)⟩
      obtain ⟨m1, m2⟩ := mem_all2 k2
      refine ⟨_, ?_, fun x => ?_, hres⟩
      · refine List.Pairwise.filter _ (List.pairwise_append.2 ⟨q2, ?_, ?_⟩)
        · refine ascending_all2 (fun s M h => ⟨h.2.1, fun x hx => ?_⟩) ?_ k2
          · exact hcov h.1 ((h.2.2 x).1 hx)
          · have := hsplit ▸ hdb.sorted.1
            exact (List.pairwise_cons.1 (List.pairwise_append.1 this).2.1).2
        · intro x hx z hz
          obtain ⟨M', hM', hz'⟩ := List.mem_flatten.1 hz
          obtain ⟨u, hu, hg⟩ := m1 M' hM'
          have h3 := hcov hsL ((q2' x).1 hx).1
          have h4 := hcov hg.1 ((hg.2.2 z).1 hz')
          have := hp.2.1 u hu
          unfold Covers at h3 h4
          exact evCmp_id_lt (by omega)
      · rw [List.mem_filter, List.mem_append, List.mem_flatten]
        constructor
        · rintro ⟨hx | ⟨M', hM', hx⟩, hd⟩
          · obtain ⟨h3, h4⟩ := (q2' x).1 hx
            exact ⟨⟨by simpa using hd, s, hs', h3⟩, h4⟩
          · obtain ⟨u, hu, hg⟩ := m1 M' hM'
            have hc := (hg.2.2 x).1 hx
            refine ⟨⟨by simpa using hd, u, (hL u).1 hg.1, hc⟩, ?_⟩
            have h4 := hcov hg.1 hc
            have := hp.2.1 u hu
            have := hhi s (by simp)
            unfold Covers at h4
            have := evCmp_id_lt (a := k) (b := x) (by omega)
            omega
        · rintro ⟨⟨hd, u, hu, hc⟩, hle⟩
          refine ⟨?_, by simpa using hd⟩
          have hu' := (hL u).2 hu
          rw [hsplit] at hu'
          rcases List.mem_append.1 hu' with hu' | hu'
          · exact absurd hle (hbelow u hu' x hc)
          · rcases List.mem_cons.1 hu' with rfl | hu'
            · exact .inl ((q2' x).2 ⟨hc, hle⟩)
            · obtain ⟨M', hM', hg⟩ := m2 u hu'
              exact .inr ⟨M', hM', (hg.2.2 x).2 hc⟩

/-- A file with two regions: two events of id 3, then the id 8. -/
def gap : List EventMem := [⟨⟨3, 0, [5], [1, 2]⟩, [9]⟩, ⟨⟨3, 0, [6], [1]⟩, [9]⟩, ⟨⟨8, 0, [], [7, 7, 7]⟩, []⟩]
def gapKey : Event := ⟨3, 0, [7], []⟩
def gapSlice (f : PartFile) : Slice CPart :=
  ⟨0, 99, ⟨Memtable.init 512 508, Memtable.init 512 508, some f⟩⟩
def gapDb (f : PartFile) : Mapping CPart := ⟨.node .black .nil (gapSlice f) .nil, 1⟩
def gapCt (_ : Slice CPart) : Content := ⟨[], [], some gap⟩

set_option maxRecDepth 100000 in
theorem gap_ends : (match writeFile C11.plain C11.src C11.arg gap with
    | .ok w => decide (w.file.length < 400) && match part_open C11.plain w.file with
      | .ok f => match open_ C11.plain memCmpStd (gapDb f) (some gapKey) with
        | .ok c => !has c && !c.cursor.current.isSome
        | _ => false
      | _ => false
    | _ => false) = true := by decide +kernel

theorem gap_file : ∃ f, FileOf C11.plain gap f ∧
    ∃ c, open_ C11.plain memCmpStd (gapDb f) (some gapKey) = .ok c ∧ Raw C11.plain memCmpStd (gapDb f) c [] := by
  obtain ⟨w, hw⟩ := write_safe (cs := C11.plain) (s := C11.src) C11.arg (ms := gap) (by intro e he; simp [C11.src] at he)
    (by simp [gap, WF]) (by decide) (by decide)
  have hlen := gap_ends
  rw [hw] at hlen
  simp only [Bool.and_eq_true, decide_eq_true_eq] at hlen
  obtain ⟨hlen, hopen⟩ := hlen
  have hg : C15.NoGrowth C11.plain C11.src gap w.index_writer.data := ⟨fun _ _ _ => trivial, trivial⟩
  have ha : ArgWF C11.src C11.arg := by simp [ArgWF, C11.arg, C11.src]
  obtain ⟨_, p, _, _, h3, _⟩ := written_open hw (by simp [gap, WF]) (by omega) ha hg.1 hg.2
  refine ⟨p, ⟨C11.src, C11.arg, w, hw, h3, ha, by omega, hg⟩, ?_⟩
  rw [h3] at hopen
  dsimp only at hopen
  cases hc : open_ C11.plain memCmpStd (gapDb p) (some gapKey) with
  | ok c =>
    rw [hc] at hopen
    dsimp only at hopen
    simp only [Bool.and_eq_true, Bool.not_eq_true', Option.isSome_eq_false_iff, Option.isNone_iff_eq_none] at hopen
    refine ⟨c, rfl, hopen.1, ?_⟩
    unfold at_ Merge.at'
    rw [hopen.2]
  | err m => rw [hc] at hopen; cases hopen
  | abort m => rw [hc] at hopen; cases hopen
  | ub m => rw [hc] at hopen; cases hopen

/-- False of the code: the file holds ids 3 (twice) and 8, and a cursor that
starts after the events of id 3 returns nothing. -/
theorem C12_seek_false : ¬ Full 512 508 := by
  intro h
  obtain ⟨f, hf, c, hc, hr⟩ := gap_file
  obtain ⟨M, _, hM, n, hn⟩ := h C11.plain memCmpStd [.add (gapSlice f)] (gapDb f) gapCt gapKey
    ⟨by simp [gapSlice], by simp [gapSlice], by simp, trivial, trivial⟩ rfl (by
      intro s hs
      simp only [C03.refRun, C03.refStep, List.mem_singleton] at hs
      subst hs
      refine ⟨⟨⟨_, rfl⟩, ⟨_, rfl⟩, hf⟩, ?_, ?_, ?_⟩
      · simp [gapCt, Content.all, Content.stored, gap, WF]
      · simp [gapCt, Content.all, Content.stored, gap, Covers, gapSlice]
      · simp only [gapCt, Content.stored, gap, Ascending]; decide) (by simp [WF, gapKey])
  have h1 := hn (n + 1) (by omega)
  have h2 : scan C11.plain memCmpStd (gapDb f) (n + 1) (some gapKey) = .ok (some []) := scan_of_raw hc hr _ (by simp)
  rw [h2] at h1
  have hMe : M = [] := by simpa using h1.symm
  have h8 := (hM ⟨8, 0, [], [7, 7, 7]⟩).2 ⟨⟨rfl, gapSlice f, by simp [C03.refRun, C03.refStep], by
    show Content.current ⟨[], [], some gap⟩ _ = _; decide⟩, by decide⟩
  rw [hMe] at h8
  cases h8

/-- The hypotheses are met by the two partitions of C11 and the key 5: the cursor
starts at the event of id 8. -/
example : ∃ f m1 m2 m3 db, C03.run Mapping.init (C11.sampleOps f m1 m2 m3) = .ok db ∧
    ∃ n, ∀ fuel ≥ n, scan C11.plain memCmpStd db fuel (some ⟨5, 0, [], []⟩) =
      .ok (some [⟨8, 0, [], [2]⟩, ⟨120, 0, [], []⟩, ⟨150, 0, [], [1]⟩]) := by
  obtain ⟨f, m1, m2, m3, h⟩ := C11.sample_holds
  obtain ⟨h1, h2, h3⟩ := C11.sample_legal f m1 m2 m3
  obtain ⟨db, e, M, ha, hm, n, hn⟩ := C12_seek_partial 512 508 (by decide) (by decide) C11.plain memCmpStd _ C11.sampleCt
    ⟨5, 0, [], []⟩ h1 h2 h h3 (by decide) (by simp [C11.sampleOps, C03.refRun, C03.refStep, Near]) (by
      intro s hs
      have hs' := hs.1
      simp only [C11.sampleOps, C03.refRun, C03.refStep, List.mem_cons, List.not_mem_nil, or_false] at hs'
      rcases hs' with rfl | rfl
      · refine ⟨⟨0, by simp [Within], by
          simp [C11.sampleCt, C11.first, Content.all, Content.stored, C11.two, Within]⟩, .inl ?_, .inl ?_, ?_⟩
        · show (C07.table C11.first.act).length ≤ 512; decide
        · show (C07.table C11.first.prev).length ≤ 512; decide
        · rintro ⟨x, hx, hi⟩
          simp [C11.sampleCt, C11.first, Content.stored, C11.two] at hx
          rcases hx with rfl | rfl <;> simp at hi
      · refine ⟨⟨0, by simp [Within], by
          simp [C11.sampleCt, C11.second, Content.all, Content.stored, Within]⟩, .inl ?_, .inl ?_, ?_⟩
        · show (C07.table C11.second.act).length ≤ 512; decide
        · show (C07.table C11.second.prev).length ≤ 512; decide
        · rintro ⟨x, hx, hi⟩
          simp [C11.sampleCt, C11.second, Content.stored] at hx)
  refine ⟨f, m1, m2, m3, db, e, n, fun fuel hf => ?_⟩
  rw [hn fuel hf]
  have hlive : ∀ x, x ∈ M ↔ x ∈ [(⟨8, 0, [], [2]⟩ : Event), ⟨120, 0, [], []⟩, ⟨150, 0, [], [1]⟩] := by
    intro x
    rw [hm x]
    constructor
    · rintro ⟨⟨hd, s, hs, hc⟩, hle⟩
      have hx := current_mem hc
      simp only [C11.sampleOps, C03.refRun, C03.refStep, List.mem_cons, List.not_mem_nil, or_false] at hs
      rcases hs with rfl | rfl
      · simp only [C11.sampleCt, if_true, Content.all, C11.first, Content.stored, C11.two, List.map_cons, List.map_nil,
          List.mem_append, List.mem_cons, List.not_mem_nil, or_false] at hx
        rcases hx with (rfl | rfl | rfl) | rfl | rfl
        · exact absurd hd (by decide)
        · exact absurd hle (by decide)
        · simp
        · exact absurd hle (by decide)
        · exact absurd (show C11.first.current _ = _ from hc) (by decide)
      · simp only [C11.sampleCt, if_neg (show ¬ (100 : Nat) = 0 by decide), Content.all, C11.second, Content.stored,
          List.append_nil, List.mem_cons, List.not_mem_nil, or_false] at hx
        rcases hx with rfl | rfl <;> simp
    · intro hx
      simp only [List.mem_cons, List.not_mem_nil, or_false] at hx
      rcases hx with rfl | rfl | rfl
      · exact ⟨⟨rfl, ⟨0, 99, ⟨m1, m2, some f⟩⟩, by simp [C11.sampleOps, C03.refRun, C03.refStep],
          show C11.first.current _ = _ by decide⟩, by decide⟩
      · exact ⟨⟨rfl, ⟨100, 199, ⟨m3, Memtable.init 512 508, none⟩⟩, by simp [C11.sampleOps, C03.refRun, C03.refStep],
          show C11.second.current _ = _ by decide⟩, by decide⟩
      · exact ⟨⟨rfl, ⟨100, 199, ⟨m3, Memtable.init 512 508, none⟩⟩, by simp [C11.sampleOps, C03.refRun, C03.refStep],
          show C11.second.current _ = _ by decide⟩, by decide⟩
  rw [C13.ascending_unique ha (by simp [Ascending, evCmp, keyCmp, Event.pair]) hlive]

end Verif.C12
