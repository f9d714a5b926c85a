import Verif.Proofs.WholeRun
import Verif.Props.C11

/-! Helper lemmas: reading the whole database. -/
namespace Verif.Whole
open Rb Spec Io Mapping Cursor
open Dur (partOf tget tset Key partOr dur lsnOf recSlot evs replayOne live vl)
open C84 (Limits Shows)

/-- A scan of partitions that can be read. -/
theorem scan_parts {cs : Codecs} {mc : MemCmp} {db : Mapping CPart} {L : List (Slice CPart)} (hdb : Mapping.Inv db L)
    (hmax : ∀ s ∈ L, s.max + 1 < 9223372036854775808) (hnear : ∀ s ∈ L, Near L (s.max + 1)) (hnear0 : Near L 0)
    {G : Slice CPart → List Event → Prop}
    (hopen : ∀ s ∈ L, ∃ mi M, partOpen cs mc s.val none = .ok mi ∧ G s M ∧ MSteps mc (fns cs mc) mi M) :
    ∃ Ms, C13.All2 G L Ms ∧ ∃ n, ∀ fuel ≥ n, Cursor.scan cs mc db fuel none = .ok (some (Ms.flatten.filter fun e => !e.isDelete)) := by
  obtain ⟨c, Ms, k1, k2, k3⟩ := raw_from (cs := cs) (mc := mc) hdb hmax hnear hopen L [] 0 rfl (by simp) (by simp) (by decide) hnear0
  refine ⟨Ms, k2, ?_⟩
  have hop : open_ cs mc db none = .ok c ∨ (∃ c0, open_ cs mc db none = .ok c0 ∧ ∃ M l, Ms = [] :: M ∧ l = M.flatMap shown ∧
      Raw cs mc db c0 l) := by
    unfold open_
    dsimp only
    rw [k1, Res.bind_ok]
    by_cases hh : c.ref.isSome = true ∧ c.cursor.has = false
    · rw [if_pos hh]
      right
      cases Ms with
      | nil =>
        have := k3.1
        unfold has at this
        rw [this] at hh; exact absurd hh.1 (by simp)
      | cons M Ms =>
        rw [List.flatMap_cons] at k3
        cases M with
        | cons e M =>
          have hat : at_ cs mc c = .ok (some e) := by
            have : Raw cs mc db c (some e :: (M.map some ++ Ms.flatMap shown)) := by
              simpa [shown] using k3
            exact this.2.1
          unfold at_ Merge.at' at hat
          have hc := hh.2
          unfold Merge.has at hc
          cases hcc : c.cursor.current with
          | none => rw [hcc] at hat; cases hat
          | some i => rw [hcc] at hc; cases hc
        | nil =>
          obtain ⟨_, _, c', n1, n2⟩ := k3
          exact ⟨c', n1, Ms, _, rfl, rfl, n2⟩
    · rw [if_neg hh]
      exact .inl rfl
  rcases hop with hop | ⟨c0, hop, M, l, rfl, rfl, hr⟩
  · exact ⟨_, by rw [← alive_flatMap]; exact scan_of_raw hop k3⟩
  · refine ⟨(M.flatMap shown).length + 1, ?_⟩
    rw [List.flatten_cons, List.nil_append, ← alive_flatMap]
    exact scan_of_raw hop hr

/-- A partition is read. -/
theorem part_reads {env : Env} {E A : List Event} {n p : Nat} {c : CPart} {ph : Phase} {fs : Files} {x : Dur.Part}
    {a : Dur.Files} (h : PartRel env E A n p c ph fs x a) (hl : Limits env E) (hs : A.Sublist E) :
    ∃ mi M, partOpen env.cs env.mc c none = .ok mi ∧ MSteps env.mc (fns env.cs env.mc) mi M ∧ Ascending M ∧
      ∀ e, e ∈ M ↔ partOf env.iv e.id = p ∧ ((tget x.act.tbl e.pair).or (tget x.prev.tbl e.pair)).or (Dur.fget x.file e.pair) = some e := by
  obtain ⟨ea, a1, a2, _, _, a5⟩ := h.act
  obtain ⟨ep, p1, p2, _, _, p5⟩ := h.prev
  obtain ⟨F, fi, b, _, _, f3, _, f5, f6, f7⟩ := file_src h.file c.act c.prev
  have hwin : ∀ e, e ∈ E → C13.Window 0 e := fun e he => by
    have := (limits_ids hl he).2
    unfold C13.Window; omega
  have hin : ∀ es : List Event, es.Sublist (A.filter fun e => partOf env.iv e.id == p) → ∀ e ∈ C07.table es, e ∈ E ∧ partOf env.iv e.id = p := by
    intro es h5 e he
    have := List.mem_filter.1 (h5.subset (mem_table he))
    exact ⟨hs.subset this.1, by simpa using this.2⟩
  obtain ⟨mi, M, m1, m2, m3⟩ := partOpen_ok (cs := env.cs) (mc := env.mc) (p := c) (key := none) (base := 0)
    (Memtable.scan_all env.mc a1.inv) (Memtable.scan_all env.mc p1.inv) f7 (by
      rintro L (rfl | rfl | rfl)
      · exact ⟨C07.table_ascending ea, fun e he => hwin e (hin ea a5 e he).1⟩
      · exact ⟨C07.table_ascending ep, fun e he => hwin e (hin ep p5 e he).1⟩
      · exact ⟨f3, fun e he => hwin e (f5 e he).1⟩)
  refine ⟨mi, M, m1, m3, m2.1, fun e => ?_⟩
  have hfind : ∀ k : Key, [C07.table ea, C07.table ep, F].flatten.find? (fun a => a.pair == k) =
      ((tget x.act.tbl k).or (tget x.prev.tbl k)).or (Dur.fget x.file k) := by
    intro k
    rw [a2, p2, f6, ← table_get, ← table_get]
    simp only [List.flatten_cons, List.flatten_nil, List.append_nil, List.find?_append]
    unfold C14.find
    rw [Option.or_assoc]
  rw [m2.2 e, hfind]
  constructor
  · intro he
    refine ⟨?_, he⟩
    rw [← hfind] at he
    have hm := List.mem_of_find?_eq_some he
    simp only [List.flatten_cons, List.flatten_nil, List.append_nil, List.mem_append] at hm
    rcases hm with hm | hm | hm
    · exact (hin ea a5 e hm).2
    · exact (hin ep p5 e hm).2
    · exact (f5 e hm).2.2
  · exact fun he => he.2

theorem lastOf_vl (H : List Wal.Rec) (e : Event) :
    vl (fun _ => true) (evs H) e.pair = C84.lastOf ((evs H).map (·.2)) e := by
  unfold vl C84.lastOf
  rw [List.filter_map, List.getLast?_map]
  congr 2
  apply List.filter_congr
  intro x _
  simp only [Bool.true_and, Function.comp, Event.pair]
  rw [Bool.eq_iff_iff]
  simp

theorem view_eq {iv : Nat} {db : Dur.Db} {k : Key} {x : Dur.Part} (h : (db.slots (partOf iv k.1)).part = some x) :
    Dur.view iv db k =
      (((tget x.act.tbl k).or (tget x.prev.tbl k)).or (Dur.fget x.file k)).filter fun e => !e.isDelete := by
  unfold Dur.view
  rw [h]
  cases hf : x.file <;> simp only [hf] <;> rfl

/-- Reading everything. -/
theorem shows_rel {env : Env} {E A B : List Event} {n k : Nat} {w : Db} {db : Dur.Db} {H : List Wal.Rec}
    (h : Rel env E A B n w db H k) (hl : Limits env E) : Shows env w A := by
  obtain ⟨L, hL⟩ := h.map
  have hcov : ∀ s ∈ L, ∀ id, Covers s id ↔ s.min = partOf env.iv id := fun s hs id => hL.grid.covers hl.interval.1 hs id
  obtain ⟨Ms, m1, m2⟩ := scan_parts (cs := env.cs) (mc := env.mc) hL.inv
    (fun s hs => by have := hL.grid s hs; omega)
    (fun s hs => hL.grid.near hl.interval.1 hl.interval.2 (.inr ⟨s, hs, rfl⟩))
    (hL.grid.near hl.interval.1 hl.interval.2 (.inl (by omega)))
    (G := fun s M => s ∈ L ∧ Ascending M ∧ ∃ x, (db.slots s.min).part = some x ∧ ∀ e, e ∈ M ↔ partOf env.iv e.id = s.min ∧
      ((tget x.act.tbl e.pair).or (tget x.prev.tbl e.pair)).or (Dur.fget x.file e.pair) = some e)
    (fun s hs => by
      obtain ⟨x, x1, x2⟩ := hL.has s hs
      obtain ⟨mi, M, r1, r2, r3, r4⟩ := part_reads x2 hl h.sub
      exact ⟨mi, M, r1, ⟨hs, r3, x, x1, r4⟩, r2⟩)
  refine ⟨_, ?_, fun e => ?_, m2⟩
  · refine List.Pairwise.filter _ (ascending_all2 (fun s M h => ⟨h.2.1, fun x hx => ?_⟩) hL.inv.sorted.1 m1)
    obtain ⟨hs, _, y, _, hy⟩ := h
    exact (hcov s hs x.id).2 ((hy x).1 hx).1.symm
  · have hv := Dur.view_content h.inv e.pair
    unfold Dur.content at hv
    rw [Dur.version_vl _ _ _ h.inv.writes, lastOf_vl, h.hist] at hv
    have hr : (C84.lastOf A e = some e ∧ e.isDelete = false) ↔ Dur.view env.iv db e.pair = some e := by
      rw [hv, Option.filter_eq_some_iff]
      simp
    rw [hr]
    obtain ⟨n1, n2⟩ := mem_all2 m1
    rw [List.mem_filter, List.mem_flatten]
    have hk : e.pair.1 = e.id := rfl
    constructor
    · rintro ⟨⟨M, hM, hx⟩, hd⟩
      obtain ⟨s, hs, _, _, x, g1, g2⟩ := n1 M hM
      obtain ⟨q1, q2⟩ := (g2 e).1 hx
      rw [view_eq (by rw [hk, q1]; exact g1), q2, Option.filter_eq_some_iff]
      exact ⟨rfl, hd⟩
    · intro hv
      by_cases hs : ∃ s ∈ L, s.min = partOf env.iv e.id
      · obtain ⟨s, hs, hm⟩ := hs
        obtain ⟨M, hM, _, _, x, g1, g2⟩ := n2 s hs
        rw [view_eq (by rw [hk, ← hm]; exact g1)] at hv
        obtain ⟨v1, v2⟩ := Option.filter_eq_some_iff.1 hv
        exact ⟨⟨M, hM, (g2 e).2 ⟨hm.symm, v1⟩⟩, v2⟩
      · have := (hL.free (partOf env.iv e.id) (fun s hs' e' => hs ⟨s, hs', e'⟩)).1
        unfold Dur.view at hv
        rw [hk, this] at hv
        cases hv

end Verif.Whole
