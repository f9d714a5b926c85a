import Verif.Proofs.Cursor
import Verif.Proofs.FileSeek

namespace Verif.Cursor
open Spec Io

/-! ### The contents of a partition -/

theorem table_reach {mc : MemCmp} {sp ss base : Nat} (h1 : 0 < ss) (h2 : ss < sp) {es : List Event} {m : Memtable}
    (h : ∃ ps, C07.run mc (Memtable.init sp ss) es = .ok (m, ps)) (hw : ∀ e ∈ es, Within base e)
    (ht : C07.Tame sp ss es) : C07.Reach sp ss base es m := by
  obtain ⟨m', ps', h3, h4, _⟩ := C07.run_tame mc h1 h2 base es hw ht
  obtain ⟨ps, h⟩ := h
  rw [h] at h3
  cases h3
  exact h4

theorem file_rep {cs : Codecs} {ms : List EventMem} {f : PartFile} (h : FileOf cs ms f) (hwf : ∀ m ∈ ms, WF m.event)
    (ha : Ascending (ms.map (·.event))) :
    ∃ rs, Rep cs f rs ∧ rs.flatten = ms.map (·.event) ∧
      rs.Pairwise fun r r' => ∀ x ∈ r, ∀ y ∈ r', x.id < y.id := by
  obtain ⟨s, a, w, h1, h2, h3, h4, h5⟩ := h
  obtain ⟨es, p, e1, e2, e3, _, _, _, _, _, _, hrep⟩ := written_open h1 hwf h4 h3 h5.1 h5.2
  rw [h2] at e3
  cases e3
  have hflat : (es.map (·.ms)).flatten = ms := by rw [← e1, List.flatMap_def]
  have hs : ms.Pairwise fun x y => x.event.id ≤ y.event.id := by
    have := List.pairwise_map.1 ha
    exact this.imp fun h => evCmp_id_le (Int.le_of_lt h)
  refine ⟨_, hrep, ?_, ?_⟩
  · rw [← hflat]
    simp only [List.map_flatten, List.map_map]
    rfl
  · have hp : (es.map (·.ms)).Pairwise fun r r' => ∀ x ∈ r, ∀ y ∈ r', x.event.id < y.event.id := by
      rcases e2 with e2 | ⟨rs, cur, e2, hc, hd⟩
      · rw [e2]; simp
      · rw [e2] at hflat ⊢
        exact C16.ascending_of hd hc (by rw [hflat]; exact hs)
    have heq : (es.map fun e => e.ms.map (·.event)) = (es.map (·.ms)).map fun r => r.map (·.event) := by
      simp
    rw [heq, List.pairwise_map]
    refine hp.imp fun h x hx y hy => ?_
    obtain ⟨x', hx', rfl⟩ := List.mem_map.1 hx
    obtain ⟨y', hy', rfl⟩ := List.mem_map.1 hy
    exact h x' hx' y' hy'

theorem find_pair (L : List Event) (k : Event) : (L.find? fun a => a.pair == k.pair) = lookup k L := by
  unfold lookup
  congr 1
  funext a
  by_cases h : a.pair = k.pair
  · rw [evCmp_eq.2 h]; simp [h]
  · have : evCmp a k ≠ 0 := fun h' => h (evCmp_eq.1 h')
    have h1 : (a.pair == k.pair) = false := by simpa using h
    have h2 : (evCmp a k == 0) = false := by simpa using this
    rw [h1, h2]

theorem current_eq (c : Content) (k : Event) :
    c.current k = ([C07.table c.act, C07.table c.prev, c.stored].flatten.find? fun a => a.pair == k.pair) := by
  simp only [List.flatten_cons, List.flatten_nil, List.append_nil, List.find?_append]
  rw [find_pair, find_pair, C07.lookup_table, C07.lookup_table]
  unfold Content.current
  cases C07.lastOf k c.act <;> simp

theorem find_atOrAfter (k x : Event) (L : List Event) (h : evCmp k x ≤ 0) :
    ((atOrAfter k L).find? fun a => a.pair == x.pair) = L.find? fun a => a.pair == x.pair := by
  unfold atOrAfter
  rw [List.find?_filter]
  congr 1
  funext a
  by_cases hp : a.pair = x.pair
  · have h1 := evCmp_congr_right (c := k) (evCmp_eq.2 hp)
    have h2 := evCmp_swap a k
    have h3 : (a.pair == x.pair) = true := by simpa using hp
    have h4 : decide (evCmp a k ≥ 0) = true := by simp; omega
    rw [h3, h4]; rfl
  · have h3 : (a.pair == x.pair) = false := by simpa using hp
    rw [h3]; simp

/-- The merged tables and file from the key on. -/
theorem merged_from {c : Content} {k : Event} {M : List Event}
    (h : C13.Merged [atOrAfter k (C07.table c.act), atOrAfter k (C07.table c.prev), atOrAfter k c.stored] M) :
    Ascending M ∧ ∀ x, x ∈ M ↔ c.current x = some x ∧ evCmp k x ≤ 0 := by
  refine ⟨h.1, fun x => ?_⟩
  rw [h.2 x]
  simp only [List.flatten_cons, List.flatten_nil, List.append_nil]
  by_cases hk : evCmp k x ≤ 0
  · rw [current_eq]
    simp only [List.flatten_cons, List.flatten_nil, List.append_nil, List.find?_append,
      find_atOrAfter k x _ hk]
    exact ⟨fun h => ⟨h, hk⟩, fun h => h.1⟩
  · constructor
    · intro hf
      exfalso
      have := List.mem_of_find?_eq_some hf
      have : evCmp x k ≥ 0 := by
        simp only [List.mem_append, atOrAfter, List.mem_filter, decide_eq_true_eq] at this
        rcases this with h | h | h
        · exact h.2
        · exact h.2
        · exact h.2
      have := evCmp_swap x k
      omega
    · intro h; exact absurd h.2 hk

theorem merged_all {c : Content} {M : List Event}
    (h : C13.Merged [C07.table c.act, C07.table c.prev, c.stored] M) :
    Ascending M ∧ ∀ x, x ∈ M ↔ c.current x = some x :=
  ⟨h.1, fun x => by rw [h.2 x, current_eq]⟩

theorem current_mem {c : Content} {k x : Event} (h : c.current k = some x) : x ∈ c.all := by
  unfold Content.current at h
  unfold Content.all
  have hl : ∀ {es : List Event}, C07.lastOf k es = some x → x ∈ es := fun h =>
    List.mem_reverse.1 (List.mem_of_find?_eq_some h)
  simp only [List.mem_append]
  cases h1 : C07.lastOf k c.act with
  | some y => rw [h1] at h; simp at h; subst h; exact .inl (.inl (hl h1))
  | none =>
    rw [h1] at h
    cases h2 : C07.lastOf k c.prev with
    | some y => rw [h2] at h; simp at h; subst h; exact .inl (.inr (hl h2))
    | none =>
      rw [h2] at h
      simp only [Option.none_or] at h
      exact .inr (List.mem_of_find?_eq_some h)

theorem mem_table {es : List Event} {x : Event} (h : x ∈ C07.table es) : x ∈ es := by
  have h1 := C07.lookup_eq_some (C07.table_ascending es) h (evCmp_refl x)
  rw [C07.lookup_table] at h1
  exact List.mem_reverse.1 (List.mem_of_find?_eq_some h1)

theorem sub_ascending {L : List Event} (h : Ascending L) (k : Event) : Ascending (atOrAfter k L) :=
  List.Pairwise.filter _ h

/-- Opening a partition without a key. -/
theorem open_all {cs : Codecs} {mc : MemCmp} {sp ss : Nat} (h1 : 0 < ss) (h2 : ss < sp) {s : Slice CPart} {c : Content}
    (hb : Built cs mc sp ss c s.val) (hs : Sound s c) (ht : C11.TameContent sp ss c)
    (hmax : s.max < 9223372036854775808) :
    ∃ mi M, partOpen cs mc s.val none = .ok mi ∧ (Ascending M ∧ ∀ x, x ∈ M ↔ c.current x = some x) ∧
      MSteps mc (fns cs mc) mi M := by
  obtain ⟨⟨base, hw⟩, ha, hp⟩ := ht
  have r1 := table_reach h1 h2 hb.act (fun e he => hw e (by simp [Content.all, he])) ha
  have r2 := table_reach h1 h2 hb.prev (fun e he => hw e (by simp [Content.all, he])) hp
  have hf : FileScans cs mc s.val.file none c.stored := by
    have hbf := hb.file
    have hst := hs.sorted
    have hwf := hs.wf
    unfold FileScans Content.stored at *
    cases hcf : c.file with
    | none =>
      rw [hcf] at hbf
      cases hsf : s.val.file with
      | none => rfl
      | some f => rw [hsf] at hbf; exact hbf.elim
    | some ms =>
      rw [hcf] at hbf hst
      cases hsf : s.val.file with
      | none => rw [hsf] at hbf; exact hbf.elim
      | some f =>
        rw [hsf] at hbf
        obtain ⟨rs, k1, k2, _⟩ := file_rep hbf (fun m hm => hwf m.event (by
          simp only [Content.all, Content.stored, hcf, List.mem_append]
          exact .inr (List.mem_map.2 ⟨m, hm, rfl⟩))) hst
        obtain ⟨it, k3, k4⟩ := scan_ok (mc := mc) k1
        exact ⟨it, false, k3, by dsimp only; rw [← k2]; exact k4⟩
  have hwin : ∀ e ∈ c.all, C13.Window 0 e := fun e he => by
    have := (hs.covered e he).2
    unfold C13.Window; omega
  obtain ⟨mi, M, e1, e2, e3⟩ := partOpen_ok (base := 0) (Memtable.scan_all mc r1.inv) (Memtable.scan_all mc r2.inv) hf
    (by
      rintro L (rfl | rfl | rfl)
      · exact ⟨C07.table_ascending _, fun e he => hwin e (by simp [Content.all, mem_table he])⟩
      · exact ⟨C07.table_ascending _, fun e he => hwin e (by simp [Content.all, mem_table he])⟩
      · exact ⟨hs.sorted, fun e he => hwin e (by simp [Content.all, he])⟩)
  exact ⟨mi, M, e1, merged_all e2, e3⟩

/-- Opening a partition at a key. -/
theorem open_key {cs : Codecs} {mc : MemCmp} {sp ss : Nat} (h1 : 0 < ss) (h2 : ss < sp) {s : Slice CPart} {c : Content}
    (hb : Built cs mc sp ss c s.val) (hs : Sound s c) (hta : C07.Tame sp ss c.act) (htp : C07.Tame sp ss c.prev)
    (hmax : s.max < 9223372036854775808) {k : Event} (hk : k.id < 9223372036854775808)
    (ht : C12.TameStart sp ss c k) :
    ∃ mi M, partOpen cs mc s.val (some k) = .ok mi ∧
      (Ascending M ∧ ∀ x, x ∈ M ↔ c.current x = some x ∧ evCmp k x ≤ 0) ∧ MSteps mc (fns cs mc) mi M := by
  obtain ⟨⟨base, hkw, hw⟩, sa, sb, sf⟩ := ht
  have r1 := table_reach h1 h2 hb.act (fun e he => hw e (by simp [Content.all, he])) hta
  have r2 := table_reach h1 h2 hb.prev (fun e he => hw e (by simp [Content.all, he])) htp
  have hf : FileScans cs mc s.val.file (some k) (atOrAfter k c.stored) := by
    have hbf := hb.file
    have hst := hs.sorted
    have hall : ∀ e ∈ c.stored, e ∈ c.all := fun e he => by simp [Content.all, he]
    have hcov := hs.covered
    have hwf := hs.wf
    unfold FileScans
    cases hcf : c.file with
    | none =>
      rw [hcf] at hbf
      cases hsf : s.val.file with
      | none => simp [Content.stored, hcf, atOrAfter]
      | some f => rw [hsf] at hbf; exact hbf.elim
    | some ms =>
      have hse : c.stored = ms.map (·.event) := by simp [Content.stored, hcf]
      rw [hcf] at hbf
      cases hsf : s.val.file with
      | none => rw [hsf] at hbf; exact hbf.elim
      | some f =>
        rw [hsf] at hbf
        obtain ⟨rs, k1, k2, k3⟩ := file_rep hbf (fun m hm => hwf m.event (hall _ (by
          rw [hse]; exact List.mem_map.2 ⟨m, hm, rfl⟩))) (hse ▸ hst)
        rw [hse, ← k2] at hall hst sf ⊢
        exact seek_ok k1 k3 hst (base := base) (fun e he => hw e (hall e he)) (fun e he => by
          have := (hcov e (hall e he)).2; omega) hkw hk sf
  have hwin : ∀ e ∈ c.all, C13.Window 0 e := fun e he => by
    have := (hs.covered e he).2
    unfold C13.Window; omega
  have hmem : ∀ {L : List Event} {e : Event}, e ∈ atOrAfter k L → e ∈ L := fun h => (List.mem_filter.1 h).1
  obtain ⟨mi, M, e1, e2, e3⟩ := partOpen_ok (base := 0)
    (Memtable.seek_last mc r1.inv hkw (r1.routed sa)).1 (Memtable.seek_last mc r2.inv hkw (r2.routed sb)).1 hf
    (by
      rintro L (rfl | rfl | rfl)
      · exact ⟨sub_ascending (C07.table_ascending _) k, fun e he => hwin e (by simp [Content.all, mem_table (hmem he)])⟩
      · exact ⟨sub_ascending (C07.table_ascending _) k, fun e he => hwin e (by simp [Content.all, mem_table (hmem he)])⟩
      · exact ⟨sub_ascending hs.sorted k, fun e he => hwin e (by simp [Content.all, hmem he])⟩)
  exact ⟨mi, M, e1, merged_from e2, e3⟩

/-! ### All partitions -/

theorem legal_mono {β : Type} {lim lim' : List (Slice β) → Slice β → Prop} (h : ∀ S s, lim S s → lim' S s) :
    ∀ (ops : List (C03.Op β)) (S : List (Slice β)), C03.Legal lim S ops → C03.Legal lim' S ops
  | [], _, _ => trivial
  | .add _ :: os, _, ⟨l1, l2, l3, l4, l5⟩ => ⟨l1, l2, l3, h _ _ l4, legal_mono h os _ l5⟩
  | .drop _ :: os, _, ⟨l1, l2⟩ => ⟨l1, legal_mono h os _ l2⟩

theorem legal_all {β : Type} {lim : List (Slice β) → Slice β → Prop} {P : Slice β → Prop} (h : ∀ S s, lim S s → P s) :
    ∀ (ops : List (C03.Op β)) (S : List (Slice β)), (∀ s ∈ S, P s) → C03.Legal lim S ops →
      ∀ s ∈ C03.refRun S ops, P s
  | [], _, hS, _ => hS
  | .add s :: os, S, hS, ⟨_, _, _, l4, l5⟩ => legal_all h os _ (by
      intro u hu
      rcases List.mem_cons.1 hu with rfl | hu
      · exact h _ _ l4
      · exact hS u hu) l5
  | .drop _ :: os, S, hS, ⟨_, l2⟩ => legal_all h os _ (fun u hu => hS u (List.mem_filter.1 hu).1) l2

theorem mem_all2 {G : Slice CPart → List Event → Prop} : ∀ {L : List (Slice CPart)} {Ms : List (List Event)},
    C13.All2 G L Ms → (∀ M ∈ Ms, ∃ s ∈ L, G s M) ∧ (∀ s ∈ L, ∃ M ∈ Ms, G s M)
  | [], [], _ => ⟨by simp, by simp⟩
  | s :: L, M :: Ms, ⟨h1, h2⟩ => by
    obtain ⟨g1, g2⟩ := mem_all2 h2
    refine ⟨fun M' hM => ?_, fun s' hs => ?_⟩
    · rcases List.mem_cons.1 hM with rfl | hM
      · exact ⟨s, by simp, h1⟩
      · obtain ⟨u, hu, h⟩ := g1 M' hM; exact ⟨u, by simp [hu], h⟩
    · rcases List.mem_cons.1 hs with rfl | hs
      · exact ⟨M, by simp, h1⟩
      · obtain ⟨u, hu, h⟩ := g2 s' hs; exact ⟨u, by simp [hu], h⟩

/-- Lists of events inside ascending ranges are ascending together. -/
theorem ascending_all2 {G : Slice CPart → List Event → Prop}
    (hG : ∀ s M, G s M → Ascending M ∧ ∀ x ∈ M, Covers s x.id) : ∀ {L : List (Slice CPart)} {Ms : List (List Event)},
    L.Pairwise (fun a b => a.max < b.min) → C13.All2 G L Ms → Ascending Ms.flatten
  | [], [], _, _ => List.Pairwise.nil
  | s :: L, M :: Ms, hp, ⟨h1, h2⟩ => by
    obtain ⟨p1, p2⟩ := List.pairwise_cons.1 hp
    rw [List.flatten_cons]
    refine List.pairwise_append.2 ⟨(hG s M h1).1, ascending_all2 hG p2 h2, fun x hx y hy => ?_⟩
    obtain ⟨M', hM', hy'⟩ := List.mem_flatten.1 hy
    obtain ⟨u, hu, hg⟩ := (mem_all2 h2).1 M' hM'
    have h3 := (hG s M h1).2 x hx
    have h4 := (hG u M' hg).2 y hy'
    have := p1 u hu
    unfold Covers at h3 h4
    exact evCmp_id_lt (by omega)

theorem alive_flatMap (Ms : List (List Event)) :
    alive (Ms.flatMap shown) = Ms.flatten.filter fun e => !e.isDelete := by
  induction Ms with
  | nil => rfl
  | cons M Ms ih => rw [List.flatMap_cons, alive_append, alive_shown, ih, List.flatten_cons, List.filter_append]

end Verif.Cursor
