import Verif.Proofs.WholeScan
import Verif.Props.C12
import Verif.Spec.C85

/-! Helper lemmas: reading the whole database from a key on. -/
namespace Verif.Whole
open Rb Spec Io Mapping Cursor
open Dur (partOf tget tset Key partOr dur lsnOf recSlot evs replayOne live vl)
open C84 (Limits)
open C85 (ShowsFrom KeyOk)

theorem seek_sub {sp ss : Nat} {l l' : List Event} {k : Event} (h : C12.TameSeek sp ss l k) (hs : ∀ e ∈ l', e ∈ l) :
    C12.TameSeek sp ss l' k := by
  have htab : ∀ x ∈ C07.table l', ∃ y ∈ C07.table l, y.pair = x.pair :=
    fun x hx => table_has (hs x (Cursor.mem_table hx))
  rcases h with h | h
  · exact .inl (Nat.le_trans (len_le (C07.table_ascending _) htab) h)
  · right
    refine Nat.lt_of_le_of_lt (len_le ((C07.table_ascending _).filter _) ?_) h
    intro x hx
    obtain ⟨hx1, hx2⟩ := List.mem_filter.1 hx
    obtain ⟨y, hy, hyx⟩ := htab x hx1
    refine ⟨y, List.mem_filter.2 ⟨hy, ?_⟩, hyx⟩
    have h7 : evCmp x k > 0 := by simpa using hx2
    have : evCmp y k = evCmp x k := by unfold evCmp; rw [hyx]
    simpa [this] using h7

/-- The table, seen from id 0. -/
theorem reach_base {sp ss b b' : Nat} {es : List Event} {m : Memtable} (h : C07.Reach sp ss b es m)
    (hw : ∀ e ∈ C07.table es, Within b' e) : C07.Reach sp ss b' es m :=
  ⟨⟨h.inv.valid, h.inv.page, h.inv.pids, h.inv.list, h.inv.asc, hw, h.inv.cntp, h.inv.cnt, h.inv.cfg⟩, h.iters, h.hsp,
    h.hss, h.last, h.single⟩

/-- The file of a partition, from a key on. -/
theorem file_from {env : Env} {E : List Event} {n p : Nat} {f : Option PartFile} {a : Option Dur.PFile}
    (h : OpenRel env E n p f a) (hE : ∀ e ∈ E, e.id < 2147483648) {k : Event} (hk : k.id < 2147483648)
    (hkk : k.key.length ≤ 255)
    (ht : ∀ F : List Event, (∀ e ∈ F, e ∈ E ∧ partOf env.iv e.id = p) → C12.NoTail F k) :
    ∃ F : List Event, Ascending F ∧ (∀ e ∈ F, e ∈ E ∧ partOf env.iv e.id = p) ∧ (∀ k : Key, Dur.fget a k = C14.find F k) ∧
      FileScans env.cs env.mc f (some k) (atOrAfter k F) := by
  cases f with
  | none =>
    cases a with
    | some a => exact h.elim
    | none => exact ⟨[], .nil, by simp, fun k => rfl, rfl⟩
  | some f =>
    cases a with
    | none => exact h.elim
    | some a =>
      have h : FileRel env E n p f a := h
      obtain ⟨ms, m1, m2, m3, m4, m5⟩ := h.ex
      obtain ⟨rs, k1, k2, k3⟩ := file_rep m1 (fun m hm => (m2 m hm).2.1) m3
      have hall : ∀ e ∈ rs.flatten, e ∈ E ∧ WF e ∧ partOf env.iv e.id = p := by
        rw [k2]
        intro e he
        obtain ⟨m, hm, rfl⟩ := List.mem_map.1 he
        exact m2 m hm
      refine ⟨rs.flatten, k2 ▸ m3, fun e he => ⟨(hall e he).1, (hall e he).2.2⟩, fun k => by rw [k2]; exact m5 k, ?_⟩
      refine seek_ok k1 k3 (k2 ▸ m3) (base := 0) (fun e he => ?_) (fun e he => ?_) ?_ (by omega)
        (ht _ fun e he => ⟨(hall e he).1, (hall e he).2.2⟩)
      · have h1 := hE e (hall e he).1
        have h2 := (hall e he).2.1
        unfold WF at h2
        unfold Within; omega
      · have := hE e (hall e he).1
        omega
      · unfold Within; omega

/-- A partition is read from a key on. -/
theorem part_from {env : Env} {E A : List Event} {n p : Nat} {c : CPart} {ph : Phase} {fs : Files} {x : Dur.Part}
    {a : Dur.Files} (h : PartRel env E A n p c ph fs x a) (hl : Limits env E) (hs : A.Sublist E)
    (hwf : ∀ e ∈ A, WF e) {k : Event} (hk : k.id < 2147483648)
    (hkk : k.key.length ≤ 255) (htab : C12.TameSeek 512 508 (E.filter fun e => partOf env.iv e.id == p) k)
    (ht : ∀ F : List Event, (∀ e ∈ F, e ∈ E ∧ partOf env.iv e.id = p) → C12.NoTail F k) :
    ∃ mi M, partOpen env.cs env.mc c (some k) = .ok mi ∧ MSteps env.mc (fns env.cs env.mc) mi M ∧ Ascending M ∧
      ∀ e, e ∈ M ↔ (partOf env.iv e.id = p ∧
        ((tget x.act.tbl e.pair).or (tget x.prev.tbl e.pair)).or (Dur.fget x.file e.pair) = some e) ∧ evCmp k e ≤ 0 := by
  obtain ⟨ea, a1, a2, _, _, a5⟩ := h.act
  obtain ⟨ep, p1, p2, _, _, p5⟩ := h.prev
  have hE : ∀ e ∈ E, e.id < 2147483648 := fun e he => (limits_ids hl he).2
  obtain ⟨F, f3, f5, f6, f7⟩ := file_from h.file hE hk hkk ht
  have hwin : ∀ e, e ∈ E → C13.Window 0 e := fun e he => by
    have := (limits_ids hl he).2
    unfold C13.Window; omega
  have hin : ∀ es : List Event, es.Sublist (A.filter fun e => partOf env.iv e.id == p) → ∀ e ∈ es, e ∈ A ∧ e ∈ E ∧ partOf env.iv e.id = p := by
    intro es h5 e he
    have := List.mem_filter.1 (h5.subset he)
    exact ⟨this.1, hs.subset this.1, by simpa using this.2⟩
  have hwk : Within 0 k := by unfold Within; omega
  have hmem : ∀ {L : List Event} {e : Event}, e ∈ atOrAfter k L → e ∈ L := fun h => (List.mem_filter.1 h).1
  have htb : ∀ {es : List Event} {m : Memtable}, C07.Reach 512 508 p es m →
      es.Sublist (A.filter fun e => partOf env.iv e.id == p) → Memtable.scan env.mc m (some k) = .ok (atOrAfter k (C07.table es)) := by
    intro es m r hsub
    have r := reach_base (b' := 0) r (by
      intro e he
      obtain ⟨h1, h2, _⟩ := hin es hsub e (mem_table he)
      have := hE e h2
      have := hwf e h1
      unfold WF at this
      unfold Within; omega)
    exact (Memtable.seek_last env.mc r.inv hwk (r.routed (seek_sub htab fun e he => by
      obtain ⟨_, h2, h3⟩ := hin es hsub e he
      exact List.mem_filter.2 ⟨h2, by simpa using h3⟩))).1
  obtain ⟨mi, M, m1, m2, m3⟩ := partOpen_ok (cs := env.cs) (mc := env.mc) (p := c) (key := some k) (base := 0)
    (htb a1 a5) (htb p1 p5) f7 (by
      rintro L (rfl | rfl | rfl)
      · exact ⟨sub_ascending (C07.table_ascending ea) k, fun e he => hwin e (hin ea a5 e (mem_table (hmem he))).2.1⟩
      · exact ⟨sub_ascending (C07.table_ascending ep) k, fun e he => hwin e (hin ep p5 e (mem_table (hmem he))).2.1⟩
      · exact ⟨sub_ascending f3 k, fun e he => hwin e (f5 e (hmem he)).1⟩)
  refine ⟨mi, M, m1, m3, m2.1, fun e => ?_⟩
  have hfind : ∀ k : Key, [C07.table ea, C07.table ep, F].flatten.find? (fun a => a.pair == k) =
      ((tget x.act.tbl k).or (tget x.prev.tbl k)).or (Dur.fget x.file k) := by
    intro k
    rw [a2, p2, f6, ← table_get, ← table_get]
    simp only [List.flatten_cons, List.flatten_nil, List.append_nil, List.find?_append]
    unfold C14.find
    rw [Option.or_assoc]
  rw [m2.2 e]
  by_cases hke : evCmp k e ≤ 0
  · have hf2 : [atOrAfter k (C07.table ea), atOrAfter k (C07.table ep), atOrAfter k F].flatten.find? (fun a => a.pair == e.pair) =
        [C07.table ea, C07.table ep, F].flatten.find? (fun a => a.pair == e.pair) := by
      simp only [List.flatten_cons, List.flatten_nil, List.append_nil, List.find?_append, find_atOrAfter k e _ hke]
    rw [hf2, hfind]
    constructor
    · intro he
      refine ⟨⟨?_, he⟩, hke⟩
      rw [← hfind] at he
      have hm := List.mem_of_find?_eq_some he
      simp only [List.flatten_cons, List.flatten_nil, List.append_nil, List.mem_append] at hm
      rcases hm with hm | hm | hm
      · exact (hin ea a5 e (mem_table hm)).2.2
      · exact (hin ep p5 e (mem_table hm)).2.2
      · exact (f5 e hm).2
    · exact fun he => he.1.2
  · constructor
    · intro hf
      exfalso
      have := List.mem_of_find?_eq_some hf
      have : evCmp e k ≥ 0 := by
        simp only [List.flatten_cons, List.flatten_nil, List.append_nil, List.mem_append, atOrAfter, List.mem_filter,
          decide_eq_true_eq] at this
        rcases this with h | h | h
        · exact h.2
        · exact h.2
        · exact h.2
      have := evCmp_swap e k
      omega
    · intro h; exact absurd h.2 hke

/-- A scan from a key on of partitions that can be read. -/
theorem scan_parts_from {cs : Codecs} {mc : MemCmp} {db : Mapping CPart} {L : List (Slice CPart)} (hdb : Mapping.Inv db L)
    (hmax : ∀ s ∈ L, s.max + 1 < 9223372036854775808) (hnear : ∀ s ∈ L, Near L (s.max + 1)) {k : Event}
    (hk : k.id < 9223372036854775808) (hnk : Near L k.id) {G : Slice CPart → List Event → Prop}
    (hopen : ∀ s ∈ L, ∃ mi M, partOpen cs mc s.val none = .ok mi ∧ G s M ∧ MSteps mc (fns cs mc) mi M)
    {K : Slice CPart → List Event → Prop}
    (hkey : ∀ s, IsGte L k.id (some s) → ∃ mi M, partOpen cs mc s.val (some k) = .ok mi ∧ K s M ∧ MSteps mc (fns cs mc) mi M) :
    ∃ lo hi, L = lo ++ hi ∧ (∀ s ∈ lo, s.max < k.id) ∧ (∀ s ∈ hi, k.id ≤ s.max) ∧
      ∃ Ms, (match hi, Ms with
        | [], [] => True
        | s :: hi, M :: Ms => K s M ∧ C13.All2 G hi Ms
        | _, _ => False) ∧
      ∃ n, ∀ fuel ≥ n, Cursor.scan cs mc db fuel (some k) = .ok (some (Ms.flatten.filter fun e => !e.isDelete)) := by
  have hsplit := (List.takeWhile_append_dropWhile (p := fun s : Slice CPart => decide (s.max < k.id)) (l := L)).symm
  have hlo := C12.takeWhile_max L k.id
  have hhi := C12.dropWhile_max hdb.sorted.1 (fun s hs => (hdb.sorted.2 s hs).1) k.id
  generalize L.takeWhile (fun s => decide (s.max < k.id)) = lo at hsplit hlo
  generalize L.dropWhile (fun s => decide (s.max < k.id)) = hi at hsplit hhi
  obtain ⟨r, g1, g2, _⟩ := Mapping.gte_spec hdb k.id hk hnk
  have hr := gte_split hdb.sorted hsplit hlo hhi g2
  refine ⟨lo, hi, hsplit, hlo, hhi, ?_⟩
  cases hi with
  | nil =>
    cases r with
    | some x => cases hr
    | none =>
      refine ⟨[], trivial, 1, ?_⟩
      have hop : open_ cs mc db (some k) = .ok ⟨none, Merge.init⟩ := by
        unfold open_ openPart
        dsimp only
        rw [g1]
        rfl
      exact scan_of_raw (l := []) hop ⟨rfl, rfl⟩
  | cons s hi =>
    cases r with
    | none => cases hr
    | some y =>
      have hy : y.v = s := by simpa using hr
      have hsL : s ∈ L := by rw [hsplit]; simp
      have hp := (hsplit ▸ hdb.sorted).parts
      have hgte : IsGte L k.id (some s) := by
        rw [Option.map_some, hy] at g2
        exact g2
      obtain ⟨mi, M, q1, q2, q3⟩ := hkey s hgte
      obtain ⟨c, Ms, k1, k2, k3⟩ := raw_from (cs := cs) (mc := mc) hdb hmax hnear hopen hi (lo ++ [s]) (s.max + 1)
        (by rw [hsplit]; simp)
        (by
          intro u hu
          rcases List.mem_append.1 hu with hu | hu
          · have := hp.1 u hu; omega
          · simp only [List.mem_singleton] at hu; subst hu; omega)
        (by intro u hu; have := hp.2.1 u hu; omega) (hmax s hsL) (hnear s hsL)
      have hw : wrapU64 ((s.max + 1 : Nat) : Int) = s.max + 1 := by
        have := hmax s hsL
        unfold wrapU64; omega
      have hop0 : openPart cs mc db k.id (some k) = .ok ⟨some s, mi⟩ := by
        unfold openPart
        rw [g1, Res.bind_ok]
        dsimp only
        rw [hy, q1]
        rfl
      refine ⟨M :: Ms, ⟨q2, k2⟩, ?_⟩
      have hal : alive (M.map some ++ Ms.flatMap shown) = (M :: Ms).flatten.filter fun e => !e.isDelete := by
        rw [alive_append, alive_map, alive_flatMap, List.flatten_cons, List.filter_append]
      rw [← hal]
      by_cases hM : M = []
      · subst hM
        have hop : open_ cs mc db (some k) = .ok c := by
          unfold open_
          dsimp only
          rw [hop0, Res.bind_ok, if_pos ⟨rfl, q3.has_nil⟩, next_empty q3, hw]
          exact k1
        exact ⟨_, scan_of_raw hop k3⟩
      · have hop : open_ cs mc db (some k) = .ok ⟨some s, mi⟩ := by
          unfold open_
          dsimp only
          rw [hop0, Res.bind_ok, if_neg]
          rintro ⟨_, hh⟩
          cases M with
          | nil => exact hM rfl
          | cons e M => have := q3.1; dsimp only at hh; rw [this] at hh; cases hh
        exact ⟨_, scan_of_raw hop (raw_part (by rw [hw]; exact k1) k3 M mi hM q3)⟩

theorem all2_imp {G G' : Slice CPart → List Event → Prop} : ∀ {L : List (Slice CPart)} {Ms : List (List Event)},
    (∀ s ∈ L, ∀ M, G s M → G' s M) → C13.All2 G L Ms → C13.All2 G' L Ms
  | [], [], _, _ => trivial
  | s :: L, M :: Ms, h, ⟨h1, h2⟩ => ⟨h s (by simp) M h1, all2_imp (fun u hu => h u (by simp [hu])) h2⟩

/-- What a key in the range of `KeyOk` meets in a partition. -/
theorem key_tail {env : Env} {E : List Event} {k : Event} (hi : 0 < env.iv) (hko : KeyOk env E k) (p : Nat) (F : List Event)
    (hF : ∀ e ∈ F, e ∈ E ∧ partOf env.iv e.id = p) : C12.NoTail F k := by
  rintro ⟨e, he, hid⟩
  rcases hko.tail with h | h
  · exact .inl ⟨e, he, hid, h e (hF e he).1 hid⟩
  · by_cases hex : ∃ x ∈ F, x.id = k.id ∧ evCmp k x ≤ 0
    · exact .inl hex
    right
    intro x hx
    have hle : x.id ≤ k.id := by
      refine h x (hF x hx).1 ?_
      have h1 := (hF x hx).2
      have h2 := (hF e he).2
      rw [partOf_mul] at h1 h2
      rw [hid] at h2
      exact Nat.eq_of_mul_eq_mul_left hi (h1.trans h2.symm)
    by_cases hlt : x.id < k.id
    · exact evCmp_id_lt hlt
    · have h3 : ¬ evCmp k x ≤ 0 := fun h4 => hex ⟨x, hx, by omega, h4⟩
      have := evCmp_swap k x
      omega

/-- Reading from a key on. -/
theorem shows_from {env : Env} {E A B : List Event} {n j : Nat} {w : Db} {db : Dur.Db} {H : List Wal.Rec}
    (h : Rel env E A B n w db H j) (hl : Limits env E) {k : Event} (hko : KeyOk env E k) : ShowsFrom env w A k := by
  obtain ⟨L, hL⟩ := h.map
  have hiv := hl.interval.1
  have hcov : ∀ s ∈ L, ∀ id, Covers s id ↔ s.min = partOf env.iv id := fun s hs id => hL.grid.covers hiv hs id
  obtain ⟨lo, hi, hsplit, hlo, hhi, Ms, hMs, hres⟩ := scan_parts_from (cs := env.cs) (mc := env.mc) hL.inv
    (fun s hs => by have := hL.grid s hs; omega)
    (fun s hs => hL.grid.near hl.interval.1 hl.interval.2 (.inr ⟨s, hs, rfl⟩)) (k := k) (by have := hko.id_; omega)
    (hL.grid.near hl.interval.1 hl.interval.2 (.inl hko.id_))
    (G := fun s M => s ∈ L ∧ Ascending M ∧ ∃ x, (db.slots s.min).part = some x ∧ ∀ e, e ∈ M ↔ partOf env.iv e.id = s.min ∧
      ((tget x.act.tbl e.pair).or (tget x.prev.tbl e.pair)).or (Dur.fget x.file e.pair) = some e)
    (fun s hs => by
      obtain ⟨x, x1, x2⟩ := hL.has s hs
      obtain ⟨mi, M, r1, r2, r3, r4⟩ := part_reads x2 hl h.sub
      exact ⟨mi, M, r1, ⟨hs, r3, x, x1, r4⟩, r2⟩)
    (K := fun s M => s ∈ L ∧ Ascending M ∧ ∃ x, (db.slots s.min).part = some x ∧ ∀ e, e ∈ M ↔ (partOf env.iv e.id = s.min ∧
      ((tget x.act.tbl e.pair).or (tget x.prev.tbl e.pair)).or (Dur.fget x.file e.pair) = some e) ∧ evCmp k e ≤ 0)
    (fun s hs => by
      obtain ⟨hs, hge, _⟩ := hs
      obtain ⟨x, x1, x2⟩ := hL.has s hs
      obtain ⟨g1, g2, g3⟩ := hL.grid s hs
      have hq : partOf env.iv s.min = env.iv * (s.min / env.iv) := partOf_mul _ _
      have htab := hko.tables (s.min / env.iv) (by
        have h2 : k.id / env.iv ≤ (s.min + env.iv - 1) / env.iv := Nat.div_le_div_right (g1 ▸ hge)
        have h3 : (s.min + env.iv - 1) / env.iv = s.min / env.iv := by
          rw [g2] at hq
          generalize s.min / env.iv = q at hq ⊢
          rw [hq, Nat.add_sub_assoc (by omega), Nat.mul_add_div hiv, Nat.div_eq_of_lt (by omega), Nat.add_zero]
        omega)
      have hft : (E.filter fun e => e.id / env.iv == s.min / env.iv) = E.filter fun e => partOf env.iv e.id == s.min := by
        apply List.filter_congr
        intro e _
        rw [Bool.eq_iff_iff, beq_iff_eq, beq_iff_eq, partOf_mul]
        rw [g2] at hq
        constructor
        · intro h; rw [h, ← hq]
        · intro h
          rw [hq] at h
          have := Nat.eq_of_mul_eq_mul_left hiv h
          exact this
      rw [hft] at htab
      obtain ⟨mi, M, r1, r2, r3, r4⟩ := part_from x2 hl h.sub h.wf hko.id_ hko.key htab (key_tail hiv hko s.min)
      exact ⟨mi, M, r1, ⟨hs, r3, x, x1, r4⟩, r2⟩)
  have hall : C13.All2 (fun s M => s ∈ L ∧ Ascending M ∧ ∃ x, (db.slots s.min).part = some x ∧
      ∀ e, e ∈ M ↔ (partOf env.iv e.id = s.min ∧
      ((tget x.act.tbl e.pair).or (tget x.prev.tbl e.pair)).or (Dur.fget x.file e.pair) = some e) ∧ evCmp k e ≤ 0) hi Ms := by
    cases hi with
    | nil =>
      cases Ms with
      | nil => trivial
      | cons M Ms => exact hMs.elim
    | cons s hi =>
      cases Ms with
      | nil => exact hMs.elim
      | cons M Ms =>
        refine ⟨hMs.1, all2_imp ?_ hMs.2⟩
        rintro u hu N ⟨g1, g2, x, g3, g4⟩
        refine ⟨g1, g2, x, g3, fun e => ?_⟩
        rw [g4 e]
        refine ⟨fun h => ⟨h, ?_⟩, fun h => h.1⟩
        have hp := (hsplit ▸ hL.inv.sorted).parts
        have h1 := hp.2.1 u hu
        have h2 := hhi s (by simp)
        have h3 := (hcov u g1 e.id).2 h.1.symm
        unfold Covers at h3
        have := evCmp_id_lt (a := k) (b := e) (by omega)
        omega
  refine ⟨_, ?_, fun e => ?_, hres⟩
  · refine List.Pairwise.filter _ (ascending_all2 (fun s M h => ⟨h.2.1, fun x hx => ?_⟩) ?_ hall)
    · obtain ⟨hs, _, y, _, hy⟩ := h
      exact (hcov s hs x.id).2 ((hy x).1 hx).1.1.symm
    · exact (List.pairwise_append.1 (hsplit ▸ hL.inv.sorted.1)).2.1
  · have hv := Dur.view_content h.inv e.pair
    unfold Dur.content at hv
    rw [Dur.version_vl _ _ _ h.inv.writes, lastOf_vl, h.hist] at hv
    have hr : (C84.lastOf A e = some e ∧ e.isDelete = false) ↔ Dur.view env.iv db e.pair = some e := by
      rw [hv, Option.filter_eq_some_iff]
      simp
    rw [hr]
    obtain ⟨n1, n2⟩ := mem_all2 hall
    rw [List.mem_filter, List.mem_flatten]
    have hk : e.pair.1 = e.id := rfl
    constructor
    · rintro ⟨⟨M, hM, hx⟩, hd⟩
      obtain ⟨s, hs, _, _, x, g1, g2⟩ := n1 M hM
      obtain ⟨⟨q1, q2⟩, q3⟩ := (g2 e).1 hx
      rw [view_eq (by rw [hk, q1]; exact g1), q2, Option.filter_eq_some_iff]
      exact ⟨⟨rfl, hd⟩, q3⟩
    · rintro ⟨hv, hle⟩
      by_cases hs : ∃ s ∈ L, s.min = partOf env.iv e.id
      · obtain ⟨s, hs, hm⟩ := hs
        have hs' := hs
        rw [hsplit] at hs'
        rcases List.mem_append.1 hs' with hs' | hs'
        · have h3 := (hcov s hs e.id).2 hm
          have h4 := hlo s hs'
          have h5 := evCmp_id_le hle
          unfold Covers at h3
          omega
        · obtain ⟨M, hM, _, _, x, g1, g2⟩ := n2 s hs'
          rw [view_eq (by rw [hk, ← hm]; exact g1)] at hv
          obtain ⟨v1, v2⟩ := Option.filter_eq_some_iff.1 hv
          exact ⟨⟨M, hM, (g2 e).2 ⟨⟨hm.symm, v1⟩, hle⟩⟩, v2⟩
      · have := (hL.free (partOf env.iv e.id) (fun s hs' e' => hs ⟨s, hs', e'⟩)).1
        unfold Dur.view at hv
        rw [hk, this] at hv
        cases hv

end Verif.Whole
