import Verif.Proofs.C91Run

/-! The partitions that the commands built. -/
namespace Verif.C91
open Spec Io Reads
open Cursor (CPart Content Holds)

theorem bounds_of {cs : Codecs} {p : PartFile} {rs : List (List Event)} (hrep : Rep cs p rs) (ha : Spec.Ascending rs.flatten)
    (i : Nat) (ir : IndexRegion) (r : List Event) (hg : p.index.get p.index_data i = .ok ir) (hr : rs[i]? = some r) :
    (∃ e ∈ r, ir.min = e.id) ∧ (∃ e ∈ r, ir.max = e.id) ∧ ∀ e ∈ r, ir.min ≤ e.id ∧ e.id ≤ ir.max := by
  obtain ⟨_, ir', _, g1, ⟨f, g2, g2'⟩, ⟨t, g3, g3'⟩, _⟩ := hrep.region i r hr
  rw [hg] at g1
  cases g1
  have hasc : Spec.Ascending r := (List.pairwise_flatten.1 ha).1 r (List.mem_of_getElem? hr)
  refine ⟨⟨f, List.mem_of_mem_head? g2, g2'⟩, ⟨t, List.mem_of_getLast? g3, g3'⟩, fun e he => ⟨?_, ?_⟩⟩
  · cases r with
    | nil => cases g2
    | cons x r =>
      cases g2
      rcases List.mem_cons.1 he with rfl | he
      · omega
      · have := evCmp_id_le (Int.le_of_lt ((List.pairwise_cons.1 hasc).1 e he))
        omega
  · obtain ⟨r', hr'⟩ : ∃ r', r = r' ++ [t] := by
      rcases List.eq_nil_or_concat r with rfl | ⟨r', y, rfl⟩
      · cases g3
      · rw [List.concat_eq_append] at g3 ⊢
        simp at g3
        exact ⟨r', by rw [g3]⟩
    rw [hr'] at he hasc
    rcases List.mem_append.1 he with he | he
    · have := evCmp_id_le (Int.le_of_lt ((List.pairwise_append.1 hasc).2.2 e he t (by simp)))
      omega
    · simp at he; subst he; omega

theorem good_of {cs : Codecs} {p : PartFile} {rs : List (List Event)} (hrep : Rep cs p rs) (ha : Spec.Ascending rs.flatten) :
    Good cs p rs :=
  ⟨hrep, fun i ir r hg hr => (bounds_of hrep ha i ir r hg hr).2.2⟩

/-- The regions from the one the index is opened at have ids from the key on. -/
theorem index_need {cs : Codecs} {p : PartFile} {rs : List (List Event)} (hrep : Rep cs p rs)
    (hsep : rs.Pairwise fun r r' => ∀ x ∈ r, ∀ y ∈ r', x.id < y.id) (ha : Spec.Ascending rs.flatten)
    {base : Nat} (hw : ∀ e ∈ rs.flatten, Within base e) (hlt : ∀ e ∈ rs.flatten, e.id < 9223372036854775808)
    {k : Event} (hk : Within base k) (hkid : k.id < 9223372036854775808) {ii : IndexIterator}
    (hii : IndexIterator.open_ p.index p.index_data (some k.id) = .ok ii) :
    ∀ i ir, ii.pos ≤ i → i < rs.length → p.index.get p.index_data i = .ok ir → k.id ≤ ir.max := by
  obtain ⟨l, hl1, hl2⟩ := exists_list (P := fun i (ir : IndexRegion) => p.index.get p.index_data i = .ok ir ∧ i < rs.length)
    rs.length (by
      intro i hi
      obtain ⟨_, ir, rg, g1, _⟩ := hrep.region i rs[i] (List.getElem?_eq_getElem hi)
      exact ⟨ir, g1, hi⟩)
  have hreg : ∀ {i : Nat} {r : List Event}, rs[i]? = some r → ∀ e ∈ r, e ∈ rs.flatten := fun hr e he =>
    List.mem_flatten.2 ⟨_, List.mem_of_getElem? hr, he⟩
  have hb : ∀ {i : Nat} {ir : IndexRegion}, l[i]? = some ir → ∃ r, rs[i]? = some r ∧
      (∃ e ∈ r, ir.min = e.id) ∧ (∃ e ∈ r, ir.max = e.id) ∧ ∀ e ∈ r, ir.min ≤ e.id ∧ e.id ≤ ir.max := by
    intro i ir h
    obtain ⟨g1, g2⟩ := hl2 i ir h
    exact ⟨rs[i], List.getElem?_eq_getElem g2, bounds_of hrep ha i ir _ g1 (List.getElem?_eq_getElem g2)⟩
  have hmax : ∀ ir ∈ l, ∃ e ∈ rs.flatten, ir.max = e.id := by
    intro ir hir
    obtain ⟨i, hi⟩ := List.mem_iff_getElem?.1 hir
    obtain ⟨r, hr, _, ⟨e, he, h⟩, _⟩ := hb hi
    exact ⟨e, hreg hr e he, h⟩
  have hasc : C17.Ascending l := by
    refine ⟨fun ir hir => ?_, ?_⟩
    · obtain ⟨i, hi⟩ := List.mem_iff_getElem?.1 hir
      obtain ⟨r, hr, ⟨e, he, h⟩, ⟨f, hf, h'⟩, h3⟩ := hb hi
      have := (h3 e he).2
      have := hlt f (hreg hr f hf)
      omega
    · rw [List.pairwise_iff_getElem]
      intro i j hi hj hij
      obtain ⟨r, hr, _, ⟨f, hf, h⟩, _⟩ := hb (List.getElem?_eq_getElem hi)
      obtain ⟨r', hr', ⟨e, he, h'⟩, _⟩ := hb (List.getElem?_eq_getElem hj)
      obtain ⟨hi', rfl⟩ := List.getElem?_eq_some_iff.1 hr
      obtain ⟨hj', rfl⟩ := List.getElem?_eq_some_iff.1 hr'
      have := List.pairwise_iff_getElem.1 hsep i j hi' hj' hij f hf e he
      omega
  obtain ⟨ii', hop, hcur, hpos⟩ := C17.open_ok (l := l) ⟨by rw [hrep.regions, hl1], fun i ir h => (hl2 i ir h).1⟩ hasc
    (id := k.id) (by omega)
    (.inl ⟨hkid, fun ir hir => by obtain ⟨e, he, h⟩ := hmax ir hir; have := hlt e he; omega⟩)
    ⟨fun ir hir => by
      obtain ⟨e, he, h⟩ := hmax ir (List.mem_of_find?_eq_some hir)
      have := hw e he
      unfold Within at this hk
      omega, fun ir hir => by
      obtain ⟨e, he, h⟩ := hmax ir (List.mem_of_getLast? hir)
      have := hw e he
      unfold Within at this hk
      omega⟩
  rw [hii] at hop
  cases hop
  intro i ir hle hi hg
  have hil : i < l.length := by omega
  have h1 := (hl2 i _ (List.getElem?_eq_getElem hil)).1
  rw [hg] at h1
  cases h1
  have := (hpos i _ (List.getElem?_eq_getElem hil))
  omega

/-- The file of a partition, from its content. -/
theorem file_of {cs : Codecs} {mc : MemCmp} {sp ss : Nat} {s : Slice CPart} {c : Content}
    (hb : Cursor.Built cs mc sp ss c s.val) (hs : Cursor.Sound s c) {p : PartFile} (hp : s.val.file = some p) :
    ∃ rs, Rep cs p rs ∧ rs.flatten = c.stored ∧ (rs.Pairwise fun r r' => ∀ x ∈ r, ∀ y ∈ r', x.id < y.id) := by
  have hbf := hb.file
  have hst := hs.sorted
  have hwf := hs.wf
  unfold Content.stored at *
  cases hcf : c.file with
  | none => rw [hcf, hp] at hbf; exact hbf.elim
  | some ms =>
    rw [hcf, hp] at hbf
    rw [hcf] at hst
    obtain ⟨rs, k1, k2, k3⟩ := Cursor.file_rep hbf (fun m hm => hwf m.event (by
      simp only [Content.all, Content.stored, hcf, List.mem_append]
      exact .inr (List.mem_map.2 ⟨m, hm, rfl⟩))) hst
    exact ⟨rs, k1, k2, k3⟩

theorem stored_all {c : Content} {e : Event} (h : e ∈ c.stored) : e ∈ c.all := by
  unfold Content.all
  exact List.mem_append_right _ h

/-- What holds of the partitions that commands built. -/
theorem world_of {cs : Codecs} {mc : MemCmp} {sp ss : Nat} {db : Mapping CPart} {L S : List (Slice CPart)}
    {ct : Slice CPart → Content} (hdb : Mapping.Inv db L) (hL : ∀ s, s ∈ L ↔ s ∈ S) (hold : Holds cs mc sp ss S ct) :
    World cs L := by
  have hpw := List.pairwise_iff_getElem.1 hdb.sorted.1
  have hmm : ∀ s ∈ L, s.min ≤ s.max := fun s hs => (hdb.sorted.2 s hs).1
  refine ⟨hmm, ?_, ?_, ?_⟩
  · intro s hs u hu hlt
    obtain ⟨i, hi, rfl⟩ := List.mem_iff_getElem.1 hs
    obtain ⟨j, hj, rfl⟩ := List.mem_iff_getElem.1 hu
    rcases Nat.lt_trichotomy i j with h | h | h
    · exact hpw i j hi hj h
    · subst h; omega
    · have := hpw j i hj hi h
      have := hmm _ hs
      omega
  · intro s hs u hu heq
    obtain ⟨i, hi, rfl⟩ := List.mem_iff_getElem.1 hs
    obtain ⟨j, hj, rfl⟩ := List.mem_iff_getElem.1 hu
    rcases Nat.lt_trichotomy i j with h | h | h
    · have := hpw i j hi hj h
      have := hmm _ hu
      omega
    · subst h; rfl
    · have := hpw j i hj hi h
      have := hmm _ hs
      omega
  · intro s hs p hp
    obtain ⟨hb, hsound⟩ := hold s ((hL s).1 hs)
    obtain ⟨rs, k1, k2, k3⟩ := file_of hb hsound hp
    have ha : Spec.Ascending rs.flatten := by rw [k2]; exact hsound.sorted
    refine ⟨rs, good_of k1 ha, fun i ir hi hg => ?_⟩
    obtain ⟨_, ⟨e, he, h⟩, _⟩ := bounds_of k1 ha i ir _ hg (List.getElem?_eq_getElem hi)
    have hc := hsound.covered e (stored_all (by rw [← k2]; exact List.mem_flatten.2 ⟨_, List.getElem_mem hi, he⟩))
    rw [h]
    exact hc.1

/-- Opening the cursor. -/
theorem open_inv {cs : Codecs} {mc : MemCmp} {db : Mapping CPart} {L : List (Slice CPart)} (hw : World cs L)
    {K : Option Event} (hmax : ∀ s ∈ L, s.max + 1 < 18446744073709551616) (hg : ∀ s ∈ L, Gte db L (s.max + 1))
    (hg0 : K = none → Gte db L 0) (hgk : ∀ k, K = some k → Gte db L k.id)
    (hP : ∀ k, K = some k → ∀ s, IsGte L k.id (some s) → ∀ p f, s.val.file = some p →
      File.open_ cs mc s.min p (some k) = .ok f → P cs s (some k) p f ∧ f.log.length ≤ 1)
    {c : ECursor} (h : open_ cs mc db K = .ok c) :
    EInv cs L K c ∧ (∀ s, c.ref = some s → ∀ k, K = some k → k.id ≤ s.max) ∧ AtMost 2 [] (reads c) ∧
      (K = none → AtMost 1 [] (reads c)) := by
  unfold open_ at h
  dsimp only at h
  obtain ⟨c0, h0, h⟩ := Res.bind_eq_ok.1 h
  have key : EInv cs L K c0 ∧ (∀ s, c0.ref = some s → ∀ k, K = some k → k.id ≤ s.max) ∧ AtMost 1 [] (reads c0) ∧
      (K = none → reads c0 ≠ [] → c0.cursor.has = true) := by
    unfold openPart at h0
    obtain ⟨o, h1, h0⟩ := Res.bind_eq_ok.1 h0
    cases o with
    | none =>
      cases h0
      refine ⟨⟨List.Pairwise.nil, by simp, rfl, fun hK u hu => ?_⟩, fun s hs => (by cases hs), ⟨[], rfl, by simp⟩,
        fun _ hne => absurd rfl hne⟩
      subst hK
      have : u.max < 0 := hg0 rfl none h1 u hu
      omega
    | some x =>
      obtain ⟨m, h2, h0⟩ := Res.bind_eq_ok.1 h0
      cases h0
      cases K with
      | none =>
        have hx : IsGte L 0 (some x.v) := hg0 rfl (some x) h1
        obtain ⟨g1, g2, g3⟩ := hx
        obtain ⟨log, q1, q2, q3⟩ := partOpen_log (P_open_all hw g1 (K := none) (fun k hk => by cases hk)) h2
        have hr : reads ⟨some x.v, m, []⟩ = log := by show [] ++ logOf m = log; rw [shape_log q1]; rfl
        refine ⟨⟨List.Pairwise.nil, by simp, g1, by simp, ⟨log, q1⟩, fun _ u hu hlt => ?_⟩, fun s _ k hk => (by cases hk), ⟨log, by rw [hr]; rfl, q2⟩, ?_⟩
        · have := g3 u hu (by omega)
          have := hw.sorted u hu
          omega
        · intro _ hne
          rw [hr] at hne
          exact q3 rfl hne
      | some k =>
        have hx : IsGte L k.id (some x.v) := hgk k rfl (some x) h1
        obtain ⟨log, q1, q2, q3⟩ := partOpen_log (P := P cs x.v (some k)) (fun p f hp hf => by
          obtain ⟨h3, h4⟩ := hP k rfl x.v hx p f hp hf
          exact ⟨h3, h4, fun hn => by cases hn⟩) h2
        have hr : reads ⟨some x.v, m, []⟩ = log := by show [] ++ logOf m = log; rw [shape_log q1]; rfl
        refine ⟨⟨List.Pairwise.nil, by simp, hx.1, by simp, ⟨log, q1⟩, fun hn => by cases hn⟩, ?_, ⟨log, by rw [hr]; rfl, q2⟩, fun hn => by cases hn⟩
        intro s hs k' hk'
        cases hs
        cases hk'
        exact hx.2.1
  obtain ⟨k1, k2, k3, k4⟩ := key
  by_cases hc : c0.ref.isSome ∧ c0.cursor.has = false
  · rw [if_pos hc] at h
    obtain ⟨n1, l, n2, n3⟩ := next_inv hw hmax hg k2 k1 h
    obtain ⟨l0, m2, m3⟩ := k3
    rw [List.nil_append] at m2
    refine ⟨n1, ?_, ⟨l0 ++ l, by rw [n2, m2]; rfl, by rw [List.length_append]; omega⟩, fun hK => ?_⟩
    · intro s hs k hk
      refine next_ref hmax hg (id := k.id) (fun s hs => ?_) (fun s hs => k2 s hs k hk) h s hs
      have := k1.now
      rw [hs] at this
      exact this.1
    · have hnil : reads c0 = [] := by
        by_cases hne : reads c0 = []
        · exact hne
        · have := k4 hK hne
          rw [hc.2] at this
          cases this
      exact ⟨l, by rw [n2, hnil], n3⟩
  · rw [if_neg hc] at h
    cases h
    obtain ⟨l0, m2, m3⟩ := k3
    exact ⟨k1, k2, ⟨l0, m2, by omega⟩, fun _ => ⟨l0, m2, m3⟩⟩

end Verif.C91
