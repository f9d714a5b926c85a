import Verif.Spec.C38

namespace Verif.C38
open Sto

theorem wrapS64_add (a b : Int) : wrapS64 (wrapS64 a + b) = wrapS64 (a + b) := by unfold wrapS64; omega
theorem wrapS64_sub (a b : Int) : wrapS64 (wrapS64 a - b) = wrapS64 (a - b) := by unfold wrapS64; omega

theorem wrap0 : wrapS64 (((0 : Nat) : Int) + 0) = 0 := by decide +kernel

theorem isNone_iff (s : State) : s.isNone = true ↔ s = {} := by simp [State.isNone]

/-- What a partition adds to a sum. -/
def part (f : Part → Nat) (p : Part) : Nat := if Stored p then f p else 0

theorem total_eq (f : Part → Nat) (l : List Part) : total f l = (l.map (part f)).sum := rfl

theorem total_append (f : Part → Nat) (l : List Part) (p : Part) : total f (l ++ [p]) = total f l + part f p := by
  simp [total_eq]

/-- Removing the only partition with a minimum. -/
theorem total_filter (f : Part → Nat) : ∀ (l : List Part) (p : Part), p ∈ l →
    (l.Pairwise fun p q => p.min ≠ q.min) →
    total f (l.filter fun q => q.min ≠ p.min) + part f p = total f l ∧
      (l.filter fun q => q.min ≠ p.min).length + 1 = l.length
  | [], _, h, _ => by simp at h
  | x :: l, p, h, hn => by
    rw [List.pairwise_cons] at hn
    rcases List.mem_cons.1 h with e | hm
    · subst e
      have hf : (l.filter fun q => q.min ≠ p.min) = l := by
        rw [List.filter_eq_self]
        intro q hq
        have := hn.1 q hq
        simpa using fun e => this e.symm
      rw [List.filter_cons_of_neg (by simp), hf]
      simp [total_eq]; omega
    · have hx : x.min ≠ p.min := hn.1 p hm
      have ih := total_filter f l p hm hn.2
      rw [List.filter_cons_of_pos (by simpa using hx)]
      simp only [total_eq, List.map_cons, List.sum_cons, List.length_cons] at ih ⊢
      omega

/-- Changing the only partition with a minimum. -/
theorem total_set (f : Part → Nat) : ∀ (l : List Part) (p p' : Part), p ∈ l → p'.min = p.min →
    (l.Pairwise fun p q => p.min ≠ q.min) →
    total f (l.map fun q => if q.min = p'.min then p' else q) + part f p = total f l + part f p'
  | [], _, _, h, _, _ => by simp at h
  | x :: l, p, p', h, e, hn => by
    rw [List.pairwise_cons] at hn
    rcases List.mem_cons.1 h with e1 | hm
    · subst e1
      have hf : (l.map fun q => if q.min = p'.min then p' else q) = l := by
        rw [List.map_congr_left (g := id)]
        · simp
        · intro q hq
          have := hn.1 q hq
          rw [if_neg (by rw [e]; exact fun e => this e.symm)]; rfl
      rw [List.map_cons, hf, if_pos e.symm]
      simp only [total_eq, List.map_cons, List.sum_cons]
      omega
    · have hx : x.min ≠ p'.min := by rw [e]; exact hn.1 p hm
      have ih := total_set f l p p' hm e hn.2
      rw [List.map_cons, if_neg hx]
      simp only [total_eq, List.map_cons, List.sum_cons] at ih ⊢
      omega

theorem mins_set (l : List Part) (p' : Part) :
    (l.map fun q => if q.min = p'.min then p' else q).map (·.min) = l.map (·.min) := by
  rw [List.map_map]
  apply List.map_congr_left
  intro q _
  simp only [Function.comp]
  split <;> simp_all

/-! One storage. -/

theorem add_acc (d : Int × Int) (s : Storage) (p : Part) (h : AccurateUpTo d s) : AccurateUpTo d (storage_add s p) := by
  obtain ⟨h1, h2, h3⟩ := h
  have a := total_append (·.size) s.parts p
  have b := total_append (·.events) s.parts p
  unfold storage_add addMetrics
  by_cases hs : p.state.isNone = true
  · rw [if_pos hs]
    have e : ¬ Stored p := by simp [Stored, (isNone_iff _).1 hs]
    simp only [part, if_neg e] at a b
    refine ⟨by simp [h1], ?_, ?_⟩ <;> dsimp only <;> simp_all
  · rw [if_neg hs]
    have e : Stored p := by simpa [Stored, isNone_iff] using hs
    simp only [part, if_pos e] at a b
    refine ⟨by simp [h1], ?_, ?_⟩ <;> dsimp only
    · rw [h2, wrapS64_add, a]; congr 1; omega
    · rw [h3, wrapS64_add, b]; congr 1; omega

theorem remove_acc (d : Int × Int) (s : Storage) (p p0 : Part) (h : AccurateUpTo d s) (hm : p0 ∈ s.parts)
    (hn : s.parts.Pairwise fun p q => p.min ≠ q.min) (e0 : p.min = p0.min)
    (es : part (·.size) p = part (·.size) p0) (ee : part (·.events) p = part (·.events) p0) :
    AccurateUpTo d (storage_remove s p) := by
  obtain ⟨h1, h2, h3⟩ := h
  have a := total_filter (·.size) s.parts p0 hm hn
  have b := total_filter (·.events) s.parts p0 hm hn
  rw [← e0] at a b
  rw [← es] at a
  rw [← ee] at b
  unfold storage_remove removeMetrics
  by_cases hs : p.state.isNone = true
  · rw [if_pos hs]
    have e : ¬ Stored p := by simp [Stored, (isNone_iff _).1 hs]
    simp only [part, if_neg e] at a b
    refine ⟨?_, ?_, ?_⟩ <;> dsimp only
    · omega
    · rw [h2]; congr 1; omega
    · rw [h3]; congr 1; omega
  · rw [if_neg hs]
    have e : Stored p := by simpa [Stored, isNone_iff] using hs
    simp only [part, if_pos e] at a b
    refine ⟨?_, ?_, ?_⟩ <;> dsimp only
    · omega
    · rw [h2, wrapS64_sub]; congr 1; omega
    · rw [h3, wrapS64_sub]; congr 1; omega

/-- Changing a partition shifts the difference. -/
theorem set_acc (d : Int × Int) (s : Storage) (p p' : Part) (h : AccurateUpTo d s) (hm : p ∈ s.parts) (e : p'.min = p.min)
    (hn : s.parts.Pairwise fun p q => p.min ≠ q.min) :
    AccurateUpTo (d.1 + part (·.size) p - part (·.size) p', d.2 + part (·.events) p - part (·.events) p') (setPart s p') := by
  obtain ⟨h1, h2, h3⟩ := h
  have a := total_set (·.size) s.parts p p' hm e hn
  have b := total_set (·.events) s.parts p p' hm e hn
  refine ⟨by simp [setPart, h1], ?_, ?_⟩ <;> simp only [setPart]
  · rw [h2]; congr 1; omega
  · rw [h3]; congr 1; omega

theorem addMetrics_acc (d : Int × Int) (s : Storage) (p : Part) (h : AccurateUpTo d s) :
    AccurateUpTo (d.1 + part (·.size) p, d.2 + part (·.events) p) (addMetrics s p) := by
  obtain ⟨h1, h2, h3⟩ := h
  unfold addMetrics
  by_cases hs : p.state.isNone = true
  · rw [if_pos hs]
    have e : ¬ Stored p := by simp [Stored, (isNone_iff _).1 hs]
    simp only [part, if_neg e]
    exact ⟨h1, by rw [h2]; congr 1; simp, by rw [h3]; congr 1; simp⟩
  · rw [if_neg hs]
    have e : Stored p := by simpa [Stored, isNone_iff] using hs
    simp only [part, if_pos e]
    refine ⟨h1, ?_, ?_⟩ <;> dsimp only
    · rw [h2, wrapS64_add]; congr 1; omega
    · rw [h3, wrapS64_add]; congr 1; omega

/-! The database. -/

/-- The invariant: `d` gives the lost files of a storage. -/
def Inv (d : Nat → Int × Int) (db : Db) : Prop := Placed db ∧ ∀ s ∈ db.storages, AccurateUpTo (d s.uid) s

theorem findPart_some {db : Db} {min : Nat} {s : Storage} {p : Part} (h : findPart db min = some (s, p)) :
    s ∈ db.storages ∧ p ∈ s.parts ∧ p.min = min := by
  unfold findPart at h
  obtain ⟨s', hs, hf⟩ := List.exists_of_findSome?_eq_some h
  cases hq : s'.parts.find? (fun p => p.min == min) with
  | none => rw [hq] at hf; simp at hf
  | some q =>
    rw [hq] at hf
    simp only [Option.map_some, Option.some.injEq, Prod.mk.injEq] at hf
    obtain ⟨rfl, rfl⟩ := hf
    exact ⟨hs, List.mem_of_find?_eq_some hq, by simpa using List.find?_some hq⟩

theorem findPart_none {db : Db} {min : Nat} (h : findPart db min = none) :
    ∀ s ∈ db.storages, ∀ p ∈ s.parts, p.min ≠ min := by
  intro s hs p hp e
  unfold findPart at h
  rw [List.findSome?_eq_none_iff] at h
  have := h s hs
  rw [Option.map_eq_none_iff, List.find?_eq_none] at this
  exact this p hp (by simpa using e)

theorem uid_unique {db : Db} (h : Placed db) {s t : Storage} (hs : s ∈ db.storages) (ht : t ∈ db.storages)
    (e : s.uid = t.uid) : s = t := by
  obtain ⟨h, _⟩ := h
  generalize db.storages = l at h hs ht
  induction l with
  | nil => simp at hs
  | cons x l ih =>
    rw [List.pairwise_cons] at h
    rcases List.mem_cons.1 hs with rfl | hs'
    · rcases List.mem_cons.1 ht with rfl | ht'
      · rfl
      · exact absurd e (h.1 t ht').1
    · rcases List.mem_cons.1 ht with rfl | ht'
      · exact absurd e.symm (h.1 s hs').1
      · exact ih h.2 hs' ht'

theorem placed_other {db : Db} (h : Placed db) {s t : Storage} (hs : s ∈ db.storages) (ht : t ∈ db.storages)
    (e : s.uid ≠ t.uid) : ∀ p ∈ s.parts, ∀ q ∈ t.parts, p.min ≠ q.min := by
  obtain ⟨h, _⟩ := h
  generalize db.storages = l at h hs ht
  induction l with
  | nil => simp at hs
  | cons x l ih =>
    rw [List.pairwise_cons] at h
    rcases List.mem_cons.1 hs with rfl | hs'
    · rcases List.mem_cons.1 ht with rfl | ht'
      · exact absurd rfl e
      · exact (h.1 t ht').2
    · rcases List.mem_cons.1 ht with rfl | ht'
      · intro p hp q hq e'; exact (h.1 s hs').2 q hq p hp e'.symm
      · exact ih h.2 hs' ht'

/-- Changing one storage keeps the placement when the change keeps its identity,
has no partition twice and takes no partition from elsewhere. -/
theorem placed_on {db : Db} (u : Nat) (f : Storage → Storage) (h : Placed db) (hu : ∀ s, (f s).uid = s.uid)
    (hp : ∀ s ∈ db.storages, s.uid = u → (f s).parts.Pairwise fun p q => p.min ≠ q.min)
    (hq : ∀ s ∈ db.storages, s.uid = u → ∀ p ∈ (f s).parts, (∃ p' ∈ s.parts, p'.min = p.min) ∨
      ∀ t ∈ db.storages, t.uid ≠ u → ∀ q ∈ t.parts, q.min ≠ p.min) :
    Placed (onStorage db u f) := by
  have hstep : ∀ s t : Storage, s ∈ db.storages → t ∈ db.storages → s.uid ≠ t.uid →
      (∀ p ∈ s.parts, ∀ q ∈ t.parts, p.min ≠ q.min) →
      (∀ p ∈ (if s.uid = u then f s else s).parts, ∀ q ∈ (if t.uid = u then f t else t).parts, p.min ≠ q.min) := by
    intro s t hs ht hne hd p hp' q hq'
    by_cases e1 : s.uid = u
    · have e2 : t.uid ≠ u := fun e => hne (e1.trans e.symm)
      rw [if_pos e1] at hp'
      rw [if_neg e2] at hq'
      rcases hq s hs e1 p hp' with ⟨p', hp1, e⟩ | hh
      · rw [← e]; exact hd p' hp1 q hq'
      · exact fun e => hh t ht e2 q hq' e.symm
    · rw [if_neg e1] at hp'
      by_cases e2 : t.uid = u
      · rw [if_pos e2] at hq'
        rcases hq t ht e2 q hq' with ⟨q', hq1, e⟩ | hh
        · rw [← e]; exact hd p hp' q' hq1
        · exact hh s hs e1 p hp'
      · rw [if_neg e2] at hq'
        exact hd p hp' q hq'
  refine ⟨?_, ?_⟩
  · simp only [onStorage]
    rw [List.pairwise_map]
    refine List.Pairwise.imp_of_mem ?_ h.1
    intro s t hs ht hst
    refine ⟨?_, hstep s t hs ht hst.1 hst.2⟩
    split <;> split <;> (try simp only [hu]) <;> exact hst.1
  · intro s' hs'
    simp only [onStorage, List.mem_map] at hs'
    obtain ⟨s, hs, rfl⟩ := hs'
    by_cases e1 : s.uid = u
    · rw [if_pos e1]; exact hp s hs e1
    · rw [if_neg e1]; exact h.2 s hs

theorem inv_on {db : Db} {d d' : Nat → Int × Int} (u : Nat) (f : Storage → Storage) (h : Inv d db)
    (hpl : Placed (onStorage db u f)) (hu : ∀ s, (f s).uid = s.uid) (hd : ∀ v, v ≠ u → d' v = d v)
    (hs : ∀ s ∈ db.storages, s.uid = u → AccurateUpTo (d' u) (f s)) : Inv d' (onStorage db u f) := by
  refine ⟨hpl, ?_⟩
  intro s' hs'
  simp only [onStorage, List.mem_map] at hs'
  obtain ⟨s, hsm, rfl⟩ := hs'
  by_cases e1 : s.uid = u
  · rw [if_pos e1, hu, e1]; exact hs s hsm e1
  · rw [if_neg e1, hd _ e1]; exact h.2 s hsm

theorem pairwise_mins (l : List Part) : (l.Pairwise fun p q => p.min ≠ q.min) ↔ (l.map (·.min)).Pairwise (· ≠ ·) := by
  rw [List.pairwise_map]

theorem set_pairwise {l : List Part} (p' : Part) (h : l.Pairwise fun p q => p.min ≠ q.min) :
    (l.map fun q => if q.min = p'.min then p' else q).Pairwise fun p q => p.min ≠ q.min := by
  rw [pairwise_mins, mins_set, ← pairwise_mins]; exact h

theorem set_min {l : List Part} {p' p : Part} (h : p ∈ l.map fun q => if q.min = p'.min then p' else q) :
    ∃ q ∈ l, q.min = p.min := by
  have : p.min ∈ (l.map fun q => if q.min = p'.min then p' else q).map (·.min) := List.mem_map_of_mem h
  rw [mins_set] at this
  obtain ⟨q, hq, e⟩ := List.mem_map.1 this
  exact ⟨q, hq, e⟩

/-- setPart of a partition of the storage. -/
theorem inv_set {db : Db} {d d' : Nat → Int × Int} {s : Storage} {p p' : Part} (h : Inv d db) (hs : s ∈ db.storages)
    (hp : p ∈ s.parts) (e : p'.min = p.min) (hd : ∀ v, v ≠ s.uid → d' v = d v)
    (e1 : (d' s.uid).1 = (d s.uid).1 + part (·.size) p - part (·.size) p')
    (e2 : (d' s.uid).2 = (d s.uid).2 + part (·.events) p - part (·.events) p') :
    Inv d' (onStorage db s.uid fun s => setPart s p') := by
  have hpl : Placed (onStorage db s.uid fun s => setPart s p') :=
    placed_on _ _ h.1 (fun _ => rfl) (fun t ht _ => set_pairwise _ (h.1.2 t ht)) (fun t ht _ q hq => .inl (set_min hq))
  refine inv_on _ _ h hpl (fun _ => rfl) hd ?_
  intro t ht et
  have := uid_unique h.1 ht hs et
  subst this
  have := set_acc (d t.uid) t p p' (h.2 t ht) hp e (h.1.2 t ht)
  rw [← e1, ← e2] at this
  exact this

theorem storage_add_uid (s : Storage) (p : Part) : (storage_add s p).uid = s.uid := by
  unfold storage_add addMetrics; split <;> rfl

theorem storage_add_parts (s : Storage) (p : Part) : (storage_add s p).parts = s.parts ++ [p] := by
  unfold storage_add addMetrics; split <;> rfl

theorem storage_remove_uid (s : Storage) (p : Part) : (storage_remove s p).uid = s.uid := by
  unfold storage_remove removeMetrics; split <;> rfl

theorem storage_remove_parts (s : Storage) (p : Part) :
    (storage_remove s p).parts = s.parts.filter fun q => q.min ≠ p.min := by
  unfold storage_remove removeMetrics; split <;> rfl

theorem inv_add {db : Db} {d : Nat → Int × Int} (u : Nat) (p : Part) (h : Inv d db)
    (ha : ∀ s ∈ db.storages, ∀ q ∈ s.parts, q.min ≠ p.min) : Inv d (onStorage db u fun s => storage_add s p) := by
  have hpl : Placed (onStorage db u fun s => storage_add s p) := by
    refine placed_on _ _ h.1 (fun s => storage_add_uid s p) ?_ ?_
    · intro s hs _
      rw [storage_add_parts, List.pairwise_append]
      refine ⟨h.1.2 s hs, List.pairwise_singleton _ _, ?_⟩
      intro a ham b hb
      rw [List.mem_singleton.1 hb]
      exact ha s hs a ham
    · intro s hs _ q hq
      rw [storage_add_parts, List.mem_append, List.mem_singleton] at hq
      rcases hq with hq | rfl
      · exact .inl ⟨q, hq, rfl⟩
      · exact .inr fun t ht _ q' hq' => ha t ht q' hq'
  refine inv_on _ _ h hpl (fun s => storage_add_uid s p) (fun _ _ => rfl) ?_
  intro s hs e
  subst e
  exact add_acc _ _ _ (h.2 s hs)

theorem inv_remove {db : Db} {d : Nat → Int × Int} {s : Storage} {p : Part} (h : Inv d db) (hs : s ∈ db.storages)
    (hp : p ∈ s.parts) : Inv d (onStorage db s.uid fun s => storage_remove s p) := by
  have hpl : Placed (onStorage db s.uid fun s => storage_remove s p) := by
    refine placed_on _ _ h.1 (fun s => storage_remove_uid s p) ?_ ?_
    · intro t ht _
      rw [storage_remove_parts]
      exact (h.1.2 t ht).filter _
    · intro t ht _ q hq
      rw [storage_remove_parts] at hq
      exact .inl ⟨q, (List.mem_filter.1 hq).1, rfl⟩
  refine inv_on _ _ h hpl (fun s => storage_remove_uid s p) (fun _ _ => rfl) ?_
  intro t ht e
  have := uid_unique h.1 ht hs e
  subst this
  exact remove_acc _ _ p p (h.2 t ht) hp (h.1.2 t ht) rfl rfl rfl

/-- After a removal no storage has the partition. -/
theorem absent_remove {db : Db} {s : Storage} {p : Part} (h : Placed db) (hs : s ∈ db.storages) (hp : p ∈ s.parts) :
    ∀ t ∈ (onStorage db s.uid fun s => storage_remove s p).storages, ∀ q ∈ t.parts, q.min ≠ p.min := by
  intro t' ht' q hq
  simp only [onStorage, List.mem_map] at ht'
  obtain ⟨t, ht, rfl⟩ := ht'
  by_cases e : t.uid = s.uid
  · rw [if_pos e, storage_remove_parts] at hq
    simpa using (List.mem_filter.1 hq).2
  · rw [if_neg e] at hq
    exact fun e' => placed_other h hs ht (fun e2 => e e2.symm) p hp q hq e'.symm

theorem inv_refreshApply {db db' : Db} {d : Nat → Int × Int} {s : Storage} {p : Part} {u : Nat} {size events : Nat}
    (h : Inv d db) (hs : s ∈ db.storages) (hp : p ∈ s.parts)
    (hr : refreshApply db p s.uid u size events = .ok db') : Inv d db' := by
  unfold refreshApply at hr
  obtain ⟨_, _, hr⟩ := Res.bind_eq_ok.1 hr
  obtain ⟨t, ht, hr⟩ := Res.bind_eq_ok.1 hr
  have hr := Res.ok.inj hr
  subst hr
  generalize hq : ({ min := p.min, state := { incomplete := true }, size := size, events := events, timeCreate := p.timeCreate } : Part) = q
  have hqm : q.min = p.min := by rw [← hq]
  have h1 := inv_remove h hs hp
  have ha := absent_remove h.1 hs hp
  generalize (onStorage db s.uid fun s => storage_remove s p) = db1 at h1 ha ⊢
  rw [← hqm] at ha
  have h2 := inv_add u q h1 ha
  by_cases hu : ∃ t ∈ db1.storages, t.uid = u
  · obtain ⟨t, ht, e⟩ := hu
    have hm : storage_add t q ∈ (onStorage db1 u fun s => storage_add s q).storages := by
      simp only [onStorage, List.mem_map]
      exact ⟨t, ht, by rw [if_pos e]⟩
    have := inv_set (d' := d) (p := q) (p' := { q with state := { id := true } }) h2 hm
      (by rw [storage_add_parts]; simp) rfl (fun _ _ => rfl)
      (by rw [← hq]; simp [part, Stored]) (by rw [← hq]; simp [part, Stored])
    rwa [storage_add_uid, e] at this
  · have : ∀ db2 : Db, (∀ t ∈ db2.storages, t.uid ≠ u) → ∀ f, onStorage db2 u f = db2 := by
      intro db2 h f
      unfold onStorage
      rw [List.map_congr_left (g := id)]
      · simp
      · intro t ht; rw [if_neg (h t ht)]; rfl
    have e1 := this db1 (fun t ht e => hu ⟨t, ht, e⟩)
    rw [e1] at h2
    rw [e1, e1]
    exact h2


/-- What findPart gives for a partition that is there. -/
theorem findPart_eq {db : Db} (h : Placed db) {s : Storage} {p : Part} (hs : s ∈ db.storages) (hp : p ∈ s.parts) :
    findPart db p.min = some (s, p) := by
  cases hf : findPart db p.min with
  | none => exact absurd rfl (findPart_none hf s hs p hp)
  | some r =>
    obtain ⟨t, q⟩ := r
    obtain ⟨ht, hq, e⟩ := findPart_some hf
    by_cases e1 : s.uid = t.uid
    · have := uid_unique h hs ht e1
      subst this
      have hn := h.2 s hs
      generalize s.parts = l at hn hp hq
      have : p = q := by
        induction l with
        | nil => simp at hp
        | cons x l ih =>
          rw [List.pairwise_cons] at hn
          rcases List.mem_cons.1 hp with rfl | hp'
          · rcases List.mem_cons.1 hq with rfl | hq'
            · rfl
            · exact absurd e.symm (hn.1 q hq')
          · rcases List.mem_cons.1 hq with rfl | hq'
            · exact absurd e (hn.1 p hp')
            · exact ih hn.2 hp' hq'
      rw [this]
    · exact absurd e.symm (placed_other h hs ht e1 p hp q hq)

/-- A partition after setPart. -/
theorem findPart_set {db : Db} (h : Placed db) {s : Storage} {p p' : Part} (hs : s ∈ db.storages) (hp : p ∈ s.parts)
    (e : p'.min = p.min) (f : Storage → Storage) (hf : ∀ s, (f s).uid = s.uid ∧ (f s).parts = (setPart s p').parts) :
    ∃ t, findPart (onStorage db s.uid f) p.min = some (t, p') := by
  have hpl : Placed (onStorage db s.uid f) := by
    refine placed_on _ _ h (fun s => (hf s).1) (fun t ht _ => ?_) (fun t ht _ q hq => ?_)
    · rw [(hf t).2]; exact set_pairwise _ (h.2 t ht)
    · rw [(hf t).2] at hq; exact .inl (set_min hq)
  have hm : f s ∈ (onStorage db s.uid f).storages := by
    simp only [onStorage, List.mem_map]
    exact ⟨s, hs, by rw [if_pos rfl]⟩
  have hp' : p' ∈ (f s).parts := by
    rw [(hf s).2]
    exact List.mem_map.2 ⟨p, hp, by rw [if_pos e.symm]⟩
  rw [← e]
  exact ⟨f s, findPart_eq hpl hm hp'⟩

/-- The difference after a step. -/
def next (db : Db) (op : Op) (d : Nat → Int × Int) (u : Nat) : Int × Int :=
  match op with
  | .restart .. => (0, 0)
  | op =>
    match loss db op with
    | some (v, size, events) => if v = u then ((d u).1 + size, (d u).2 + events) else d u
    | none => d u

theorem removeMetrics_none (s : Storage) (p : Part) (h : p.state.isNone = true) : removeMetrics s p = s := by
  unfold removeMetrics; rw [if_pos h]

/-- The outcome of dropFile: nothing, or one partition changed: files taken away,
and its sizes forgotten if none is left. -/
theorem dropFile_cases (db : Db) (min : Nat) (auto cloud local_ fc fl : Bool) :
    Sto.dropFile db min auto cloud local_ fc fl = db ∨
    ∃ s p p', findPart db min = some (s, p) ∧ p'.min = p.min ∧
      Sto.dropFile db min auto cloud local_ fc fl = (onStorage db s.uid fun s => setPart s p') ∧
      ((Stored p' ∧ Stored p ∧ p'.size = p.size ∧ p'.events = p.events) ∨ (¬ Stored p' ∧ p'.size = 0 ∧ p'.events = 0)) := by
  unfold Sto.dropFile
  cases hf : findPart db min with
  | none => exact .inl rfl
  | some r =>
    obtain ⟨s, p⟩ := r
    dsimp only
    by_cases h1 : (auto && (!s.cloudDropLocal || !p.state.cloud)) = true
    · rw [if_pos h1]; exact .inl rfl
    rw [if_neg h1]
    by_cases h2 : (cloud && p.state.cloud && fc) = true
    · rw [if_pos h2]; exact .inl rfl
    rw [if_neg h2]
    right
    generalize hp1 : (if (cloud && p.state.cloud) = true then { p with state := { p.state with cloud := false } } else p) = p1
    have a1 : p1.min = p.min ∧ p1.size = p.size ∧ p1.events = p.events ∧ (Stored p1 → Stored p) := by
      rw [← hp1]
      by_cases hc : (cloud && p.state.cloud) = true
      · rw [if_pos hc]
        refine ⟨rfl, rfl, rfl, fun _ => ?_⟩
        intro e
        rw [e] at hc
        simp at hc
      · rw [if_neg hc]; exact ⟨rfl, rfl, rfl, id⟩
    by_cases h3 : (local_ && p1.state.id && fl) = true
    · rw [if_pos h3]
      have hs1 : Stored p1 := by
        intro e; rw [e] at h3; simp at h3
      exact ⟨s, p, p1, rfl, a1.1, rfl, .inl ⟨hs1, a1.2.2.2 hs1, a1.2.1, a1.2.2.1⟩⟩
    rw [if_neg h3]
    generalize hp2 : (if (local_ && p1.state.id) = true then { p1 with state := { p1.state with id := false } } else p1) = p2
    have a2 : p2.min = p1.min ∧ p2.size = p1.size ∧ p2.events = p1.events ∧ (Stored p2 → Stored p1) := by
      rw [← hp2]
      by_cases hc : (local_ && p1.state.id) = true
      · rw [if_pos hc]
        refine ⟨rfl, rfl, rfl, fun _ => ?_⟩
        intro e
        rw [e] at hc
        simp at hc
      · rw [if_neg hc]; exact ⟨rfl, rfl, rfl, id⟩
    by_cases h4 : p2.state.isNone = true
    · rw [if_pos h4]
      refine ⟨s, p, { p2 with size := 0, events := 0 }, rfl, a2.1.trans a1.1, ?_, .inr ⟨?_, rfl, rfl⟩⟩
      · simp only [removeMetrics_none _ _ h4]
      · simpa [Stored, isNone_iff] using h4
    · rw [if_neg h4]
      have hs2 : Stored p2 := by simpa [Stored, isNone_iff] using h4
      have hs1 := a2.2.2.2 hs2
      exact ⟨s, p, p2, rfl, a2.1.trans a1.1, rfl, .inl ⟨hs2, a1.2.2.2 hs1, a2.2.1.trans a1.2.1, a2.2.2.1.trans a1.2.2.1⟩⟩

theorem step_dropFile (db : Db) (min : Nat) (auto cloud local_ fc fl : Bool) :
    step db (.dropFile min auto cloud local_ fc fl) = Sto.dropFile db min auto cloud local_ fc fl := rfl

theorem loss_dropFile (db : Db) (min : Nat) (auto cloud local_ fc fl : Bool) :
    loss db (.dropFile min auto cloud local_ fc fl) =
    match findPart db min, findPart (Sto.dropFile db min auto cloud local_ fc fl) min with
    | some (s, p), some (_, q) => if Stored p ∧ ¬ Stored q then some (s.uid, p.size, p.events) else none
    | _, _ => none := rfl

theorem inv_dropFile {db : Db} {d : Nat → Int × Int} (min : Nat) (auto cloud local_ fc fl : Bool) (h : Inv d db) :
    Inv (next db (.dropFile min auto cloud local_ fc fl) d) (step db (.dropFile min auto cloud local_ fc fl)) := by
  have hl : ∀ u, next db (.dropFile min auto cloud local_ fc fl) d u =
      (match loss db (.dropFile min auto cloud local_ fc fl) with
      | some (v, size, events) => if v = u then ((d u).1 + size, (d u).2 + events) else d u
      | none => d u) := fun _ => rfl
  rcases dropFile_cases db min auto cloud local_ fc fl with e | ⟨s, p, p', hf, em, e, hc⟩
  · have hn : loss db (.dropFile min auto cloud local_ fc fl) = none := by
      rw [loss_dropFile, e]
      cases hf : findPart db min with
      | none => rfl
      | some r => simp
    have : next db (.dropFile min auto cloud local_ fc fl) d = d := by
      funext u; rw [hl, hn]
    rw [this]
    rw [step_dropFile, e]
    exact h
  · obtain ⟨hs, hp, hmin⟩ := findPart_some hf
    obtain ⟨t, ht⟩ := findPart_set h.1 hs hp em (fun s => setPart s p') (fun _ => ⟨rfl, rfl⟩)
    have hloss : loss db (.dropFile min auto cloud local_ fc fl) =
        if Stored p ∧ ¬ Stored p' then some (s.uid, p.size, p.events) else none := by
      rw [loss_dropFile, e, hf, ← hmin, ht]
    rw [step_dropFile, e]
    rcases hc with ⟨c1, c2, c3, c4⟩ | ⟨c1, c2, c3⟩
    · rw [if_neg (by simp [c1])] at hloss
      have : next db (.dropFile min auto cloud local_ fc fl) d = d := by
        funext u; rw [hl, hloss]
      rw [this]
      exact inv_set h hs hp em (fun _ _ => rfl) (by simp [part, c1, c2, c3]) (by simp [part, c1, c2, c4])
    · by_cases c4 : Stored p
      · rw [if_pos ⟨c4, c1⟩] at hloss
        refine inv_set h hs hp em ?_ ?_ ?_
        · intro v hv
          rw [hl, hloss]; exact if_neg fun e => hv e.symm
        · rw [hl, hloss]; simp [part, c1, c4]
        · rw [hl, hloss]; simp [part, c1, c4]
      · rw [if_neg (by simp [c4])] at hloss
        have : next db (.dropFile min auto cloud local_ fc fl) d = d := by
          funext u; rw [hl, hloss]
        rw [this]
        exact inv_set h hs hp em (fun _ _ => rfl) (by simp [part, c1, c4]) (by simp [part, c1, c4])

/-! Restart. -/

theorem setPart_min (s : Storage) (p : Part) : (setPart s p).parts.map (·.min) = s.parts.map (·.min) := mins_set _ _

/-- The first step of recovery. -/
theorem recover1 : ∀ (found : List Found) (s : Storage), AccurateUpTo (0, 0) s →
    AccurateUpTo (0, 0) (found.foldl (fun s f => storage_add s { min := f.min }) s) ∧
    (found.foldl (fun s f => storage_add s { min := f.min }) s).parts =
      s.parts ++ found.map (fun f => ({ min := f.min } : Part)) ∧
    (found.foldl (fun s f => storage_add s { min := f.min }) s).uid = s.uid
  | [], s, h => ⟨h, by simp, rfl⟩
  | f :: l, s, h => by
    obtain ⟨a, b, c⟩ := recover1 l (storage_add s { min := f.min }) (add_acc _ _ _ h)
    refine ⟨a, ?_, ?_⟩
    · rw [List.foldl_cons, b, storage_add_parts]; simp
    · rw [List.foldl_cons, c, storage_add_uid]

/-- Partitions without an index. -/
def Bare (l : List Part) : Prop := ∀ p ∈ l, p.size = 0 ∧ p.events = 0

theorem part_bare {p : Part} (h : p.size = 0 ∧ p.events = 0) : part (·.size) p = 0 ∧ part (·.events) p = 0 := by
  unfold part; split <;> simp [h]

theorem mem_of_min {l : List Part} {m : Nat} (h : m ∈ l.map (·.min)) : ∃ p ∈ l, p.min = m := by
  obtain ⟨p, hp, e⟩ := List.mem_map.1 h
  exact ⟨p, hp, e⟩

/-- The second step. -/
theorem recover2 : ∀ (found : List Found) (s : Storage), AccurateUpTo (0, 0) s → Bare s.parts →
    (s.parts.Pairwise fun p q => p.min ≠ q.min) → (∀ f ∈ found, f.min ∈ s.parts.map (·.min)) →
    ∀ s', s' = found.foldl (fun s f => setPart s { min := f.min, state := f.state }) s →
    AccurateUpTo (0, 0) s' ∧ Bare s'.parts ∧ s'.parts.map (·.min) = s.parts.map (·.min) ∧ s'.uid = s.uid
  | [], s, h, hb, _, _, s', e => by subst e; exact ⟨h, hb, rfl, rfl⟩
  | f :: l, s, h, hb, hn, hm, s', e => by
    obtain ⟨p, hp, em⟩ := mem_of_min (hm f (.head _))
    have a := set_acc (0, 0) s p { min := f.min, state := f.state } h hp em.symm hn
    rw [(part_bare (hb p hp)).1, (part_bare (hb p hp)).2, (part_bare (p := { min := f.min, state := f.state }) ⟨rfl, rfl⟩).1,
      (part_bare (p := { min := f.min, state := f.state }) ⟨rfl, rfl⟩).2] at a
    have hb' : Bare (setPart s { min := f.min, state := f.state }).parts := by
      intro q hq
      obtain ⟨q', hq', e⟩ := List.mem_map.1 hq
      split at e
      · rw [← e]; exact ⟨rfl, rfl⟩
      · rw [← e]; exact hb q' hq'
    have hm' := setPart_min s { min := f.min, state := f.state }
    have := recover2 l (setPart s { min := f.min, state := f.state }) a hb' (set_pairwise _ hn)
      (fun g hg => by rw [hm']; exact hm g (.tail _ hg)) s' (by rw [e]; rfl)
    exact ⟨this.1, this.2.1, by rw [this.2.2.1, hm'], this.2.2.2⟩

/-- The third step: removal. -/
theorem recover3 : ∀ (gone : List Found) (s : Storage), AccurateUpTo (0, 0) s → Bare s.parts →
    (s.parts.Pairwise fun p q => p.min ≠ q.min) → (gone.Pairwise fun f g => f.min ≠ g.min) →
    (∀ f ∈ gone, f.min ∈ s.parts.map (·.min)) →
    ∀ s', s' = gone.foldl (fun s f => storage_remove s { min := f.min, state := f.state }) s →
    AccurateUpTo (0, 0) s' ∧ Bare s'.parts ∧ (s'.parts.Pairwise fun p q => p.min ≠ q.min) ∧ s'.uid = s.uid ∧
      ∀ m, m ∈ s'.parts.map (·.min) ↔ m ∈ s.parts.map (·.min) ∧ ∀ f ∈ gone, f.min ≠ m
  | [], s, h, hb, hn, _, _, s', e => by subst e; exact ⟨h, hb, hn, rfl, by simp⟩
  | f :: l, s, h, hb, hn, hd, hm, s', e => by
    rw [List.pairwise_cons] at hd
    obtain ⟨p, hp, em⟩ := mem_of_min (hm f (.head _))
    have z := part_bare (p := { min := f.min, state := f.state }) ⟨rfl, rfl⟩
    have a := remove_acc (0, 0) s { min := f.min, state := f.state } p h hp hn em.symm
      (by rw [z.1, (part_bare (hb p hp)).1]) (by rw [z.2, (part_bare (hb p hp)).2])
    have ep := storage_remove_parts s { min := f.min, state := f.state }
    have hmem : ∀ m, m ∈ (storage_remove s { min := f.min, state := f.state }).parts.map (·.min) ↔
        m ∈ s.parts.map (·.min) ∧ f.min ≠ m := by
      intro m
      rw [ep]
      simp only [List.mem_map, List.mem_filter]
      constructor
      · rintro ⟨q, ⟨hq, hne⟩, rfl⟩
        exact ⟨⟨q, hq, rfl⟩, fun e => by simp [e] at hne⟩
      · rintro ⟨⟨q, hq, rfl⟩, hne⟩
        exact ⟨q, ⟨hq, by simpa using fun e => hne e.symm⟩, rfl⟩
    have := recover3 l _ a (by rw [ep]; exact fun q hq => hb q (List.mem_filter.1 hq).1)
      (by rw [ep]; exact hn.filter _) hd.2
      (fun g hg => (hmem _).2 ⟨hm g (.tail _ hg), hd.1 g hg⟩) s' (by rw [e]; rfl)
    refine ⟨this.1, this.2.1, this.2.2.1, this.2.2.2.1.trans (storage_remove_uid _ _), ?_⟩
    intro m
    rw [this.2.2.2.2 m, hmem m, List.forall_mem_cons, and_assoc]

/-- The last step: the files are opened. -/
theorem recover4 (valid : Found → State) : ∀ (kept : List Found) (s : Storage), AccurateUpTo (0, 0) s →
    (s.parts.Pairwise fun p q => p.min ≠ q.min) → (kept.Pairwise fun f g => f.min ≠ g.min) →
    (∀ f ∈ kept, ∃ p ∈ s.parts, p.min = f.min ∧ p.size = 0 ∧ p.events = 0) →
    ∀ s', s' = kept.foldl (fun s f =>
      addMetrics (setPart s { min := f.min, state := valid f, size := f.size, events := f.events, timeCreate := f.timeCreate })
        { min := f.min, state := valid f, size := f.size, events := f.events, timeCreate := f.timeCreate }) s →
    AccurateUpTo (0, 0) s' ∧ s'.parts.map (·.min) = s.parts.map (·.min) ∧ s'.uid = s.uid
  | [], s, h, _, _, _, s', e => by subst e; exact ⟨h, rfl, rfl⟩
  | f :: l, s, h, hn, hd, hm, s', e => by
    rw [List.pairwise_cons] at hd
    obtain ⟨p, hp, em, eb⟩ := hm f (.head _)
    generalize hq : ({ min := f.min, state := valid f, size := f.size, events := f.events, timeCreate := f.timeCreate } : Part) = q at e
    have eq : q.min = f.min := by rw [← hq]
    have a := addMetrics_acc _ _ q (set_acc (0, 0) s p q h hp (eq.trans em.symm) hn)
    rw [(part_bare eb).1, (part_bare eb).2] at a
    have a : AccurateUpTo (0, 0) (addMetrics (setPart s q) q) := by
      have e0 : ((0 : Int) + ((0 : Nat) : Int) - (part (·.size) q : Int) + (part (·.size) q : Int),
        (0 : Int) + ((0 : Nat) : Int) - (part (·.events) q : Int) + (part (·.events) q : Int)) = (0, 0) := by
        refine Prod.ext ?_ ?_ <;> dsimp only <;> omega
      rw [e0] at a
      exact a
    have ep : (addMetrics (setPart s q) q).parts = (setPart s q).parts ∧ (addMetrics (setPart s q) q).uid = s.uid := by
      unfold addMetrics; split <;> exact ⟨rfl, rfl⟩
    have := recover4 valid l _ a (by rw [ep.1]; exact set_pairwise _ hn) hd.2 ?_ s' (by rw [e, List.foldl_cons]; simp only [hq])
    · exact ⟨this.1, by rw [this.2.1, ep.1, setPart_min], by rw [this.2.2, ep.2]⟩
    · intro g hg
      obtain ⟨p', hp', em', eb'⟩ := hm g (.tail _ hg)
      refine ⟨p', ?_, em', eb'⟩
      rw [ep.1]
      refine List.mem_map.2 ⟨p', hp', if_neg ?_⟩
      rw [eq, em']
      exact fun e => hd.1 g hg e.symm

theorem pw_inj : ∀ {l : List Found}, (l.Pairwise fun f g => f.min ≠ g.min) → ∀ f ∈ l, ∀ g ∈ l, f.min = g.min → f = g
  | [], _, _, h, _, _, _ => by simp at h
  | x :: l, hd, f, hf, g, hg, e => by
    rw [List.pairwise_cons] at hd
    rcases List.mem_cons.1 hf with rfl | hf'
    · rcases List.mem_cons.1 hg with rfl | hg'
      · rfl
      · exact absurd e (hd.1 g hg')
    · rcases List.mem_cons.1 hg with rfl | hg'
      · exact absurd e.symm (hd.1 f hf')
      · exact pw_inj hd.2 f hf' g hg' e

theorem recover_storage (s : Storage) (found : List Found) (keep : Found → Bool) (valid : Found → State)
    (hd : found.Pairwise fun f g => f.min ≠ g.min) (hs : s.parts = []) (ha : AccurateUpTo (0, 0) s) :
    AccurateUpTo (0, 0) (recoverStorage s found keep valid) ∧ (recoverStorage s found keep valid).uid = s.uid ∧
    ((recoverStorage s found keep valid).parts.Pairwise fun p q => p.min ≠ q.min) ∧
    ∀ p ∈ (recoverStorage s found keep valid).parts, ∃ f ∈ found, keep f = true ∧ f.min = p.min := by
  unfold recoverStorage
  dsimp only
  obtain ⟨a1, b1, c1⟩ := recover1 found s ha
  generalize (found.foldl (fun s f => storage_add s { min := f.min }) s) = s1 at a1 b1 c1 ⊢
  rw [hs, List.nil_append] at b1
  have m1 : s1.parts.map (·.min) = found.map (·.min) := by rw [b1, List.map_map]; rfl
  have n1 : s1.parts.Pairwise fun p q => p.min ≠ q.min := by
    rw [pairwise_mins, m1, List.pairwise_map]; exact hd
  have bare1 : Bare s1.parts := by
    rw [b1]; intro p hp
    obtain ⟨f, _, rfl⟩ := List.mem_map.1 hp
    exact ⟨rfl, rfl⟩
  obtain ⟨a2, bare2, m2, c2⟩ := recover2 found s1 a1 bare1 n1 (fun f hf => by rw [m1]; exact List.mem_map_of_mem hf) _ rfl
  generalize (found.foldl (fun s f => setPart s { min := f.min, state := f.state }) s1) = s2 at a2 bare2 m2 c2 ⊢
  have n2 : s2.parts.Pairwise fun p q => p.min ≠ q.min := by rw [pairwise_mins, m2, ← pairwise_mins]; exact n1
  obtain ⟨a3, bare3, n3, c3, m3⟩ := recover3 (found.filter fun f => ! keep f) s2 a2 bare2 n2 (hd.filter _)
    (fun f hf => by rw [m2, m1]; exact List.mem_map_of_mem (List.mem_filter.1 hf).1) _ rfl
  generalize ((found.filter fun f => ! keep f).foldl (fun s f => storage_remove s { min := f.min, state := f.state }) s2) = s3 at a3 bare3 n3 c3 m3 ⊢
  have inj : ∀ f ∈ found, ∀ g ∈ found, f.min = g.min → f = g := pw_inj hd
  obtain ⟨a4, m4, c4⟩ := recover4 valid (found.filter keep) s3 a3 n3 (hd.filter _) (fun f hf => by
    obtain ⟨hf1, hf2⟩ := List.mem_filter.1 hf
    have : f.min ∈ s3.parts.map (·.min) := by
      rw [m3, m2, m1]
      refine ⟨List.mem_map_of_mem hf1, fun g hg e => ?_⟩
      obtain ⟨hg1, hg2⟩ := List.mem_filter.1 hg
      rw [inj g hg1 f hf1 e, hf2] at hg2
      simp at hg2
    obtain ⟨p, hp, em⟩ := mem_of_min this
    exact ⟨p, hp, em, bare3 p hp⟩) _ rfl
  refine ⟨a4, c4.trans (c3.trans (c2.trans c1)), ?_, ?_⟩
  · rw [pairwise_mins]
    exact m4 ▸ (pairwise_mins _).1 n3
  · intro p hp
    have : p.min ∈ s3.parts.map (·.min) := m4 ▸ List.mem_map_of_mem hp
    rw [m3, m2, m1] at this
    obtain ⟨f, hf, e⟩ := List.mem_map.1 this.1
    refine ⟨f, hf, ?_, e⟩
    cases hk : keep f with
    | true => rfl
    | false => exact absurd e (this.2 f (List.mem_filter.2 ⟨hf, by simp [hk]⟩))

theorem inv_restart {db : Db} {d : Nat → Int × Int} (dirs : Nat → List Found) (keep : Nat → Found → Bool)
    (valid : Nat → Found → State) (h : Inv d db) (hl : Listing (.restart dirs keep valid)) :
    Inv (fun _ => (0, 0)) (step db (.restart dirs keep valid)) := by
  obtain ⟨h1, h2, _⟩ := hl
  have hr := fun s : Storage => recover_storage { s with parts := [], listCount := 0, size := 0, events := 0 }
    (dirs s.uid) (keep s.uid) (valid s.uid) (h1 s.uid) rfl ⟨rfl, wrap0.symm, wrap0.symm⟩
  refine ⟨⟨?_, ?_⟩, ?_⟩
  · simp only [step]
    rw [List.pairwise_map]
    refine List.Pairwise.imp ?_ h.1.1
    intro s t hst
    refine ⟨by rw [(hr s).2.1, (hr t).2.1]; exact hst.1, ?_⟩
    intro p hp q hq
    obtain ⟨f, hf, kf, ef⟩ := (hr s).2.2.2 p hp
    obtain ⟨g, hg, kg, eg⟩ := (hr t).2.2.2 q hq
    rw [← ef, ← eg]
    exact h2 s.uid t.uid hst.1 f hf kf g hg kg
  · intro s' hs'
    obtain ⟨s, hs, rfl⟩ := List.mem_map.1 hs'
    exact (hr s).2.2.1
  · intro s' hs'
    obtain ⟨s, hs, rfl⟩ := List.mem_map.1 hs'
    exact (hr s).1

theorem next_none {db : Db} {op : Op} {d : Nat → Int × Int} (h1 : loss db op = none)
    (h2 : ∀ a b c, op ≠ .restart a b c) : next db op d = d := by
  funext u
  unfold next
  cases op <;> simp_all

theorem inv_step {db : Db} {d : Nat → Int × Int} (op : Op) (h : Inv d db) (hl : Listing op) :
    Inv (next db op d) (step db op) := by
  cases op with
  | create min now =>
    rw [next_none rfl (by simp)]
    simp only [step]
    split
    · exact h
    · rename_i hf
      have hf : findPart db min = none := by simpa using hf
      unfold Sto.create
      split
      · exact inv_add _ _ h (findPart_none hf)
      · exact inv_add _ _ h (findPart_none hf)
      · exact h
  | refresh min target size events fails =>
    rw [next_none rfl (by simp)]
    simp only [step]
    unfold Sto.refresh refreshBegin
    cases hf : findPart db min with
    | none => exact h
    | some r =>
      obtain ⟨s, p⟩ := r
      obtain ⟨hs, hp, hm⟩ := findPart_some hf
      have key : ∀ u, Inv d (after db (if fails = true then .err "refresh" else refreshApply db p s.uid u size events)) := by
        intro u
        split
        · exact h
        · cases hr : refreshApply db p s.uid u size events with
          | ok db' => exact inv_refreshApply h hs hp hr
          | _ => exact h
      dsimp only
      split
      · exact h
      · cases target with
        | none => exact key s.uid
        | some name =>
          dsimp only
          cases findStorage db name with
          | none => exact h
          | some t =>
            dsimp only
            split
            · exact h
            · exact key t.uid
  | dropFile min auto cloud local_ fc fl => exact inv_dropFile min auto cloud local_ fc fl h
  | dropRef min =>
    rw [next_none rfl (by simp)]
    simp only [step]
    unfold Sto.dropRef
    cases hf : findPart db min with
    | none => exact h
    | some r =>
      obtain ⟨s, p⟩ := r
      obtain ⟨hs, hp, hm⟩ := findPart_some hf
      dsimp only
      split
      · exact inv_remove h hs hp
      · exact h
  | download min fails =>
    rw [next_none rfl (by simp)]
    simp only [step]
    unfold Sto.download
    cases hf : findPart db min with
    | none => exact h
    | some r =>
      obtain ⟨s, p⟩ := r
      obtain ⟨hs, hp, hm⟩ := findPart_some hf
      dsimp only
      split
      · exact h
      · rename_i hc
        have e1 : Stored p := by
          intro e; rw [e] at hc; simp at hc
        have e2 : Stored { p with state := { p.state with id := true } } := by
          intro e; simp at e
        exact inv_set h hs hp (p' := { p with state := { p.state with id := true } }) rfl (fun _ _ => rfl)
          (by simp [part, e1, e2]) (by simp [part, e1, e2])
  | upload min fails =>
    rw [next_none rfl (by simp)]
    simp only [step]
    unfold Sto.upload
    cases hf : findPart db min with
    | none => exact h
    | some r =>
      obtain ⟨s, p⟩ := r
      obtain ⟨hs, hp, hm⟩ := findPart_some hf
      dsimp only
      split
      · exact h
      · rename_i hc
        have e1 : Stored p := by
          intro e; rw [e] at hc; simp at hc
        have e2 : Stored { p with state := { p.state with cloud := true } } := by
          intro e; simp at e
        exact inv_set h hs hp (p' := { p with state := { p.state with cloud := true } }) rfl (fun _ _ => rfl)
          (by simp [part, e1, e2]) (by simp [part, e1, e2])
  | restart dirs keep valid => exact inv_restart dirs keep valid h hl

theorem lost_next (db : Db) (op : Op) (l : List Op) (d : Nat → Int × Int) (u : Nat) :
    lost db u (d u) (op :: l) = lost (step db op) u (next db op d u) l := rfl

theorem inv_run : ∀ (ops : List Op) (db : Db) (d : Nat → Int × Int), Inv d db → (∀ op ∈ ops, Listing op) →
    Inv (fun u => lost db u (d u) ops) (run db ops)
  | [], _, _, h, _ => h
  | op :: l, db, d, h, hl => by
    have := inv_run l (step db op) (next db op d) (inv_step op h (hl op (.head _))) (fun o ho => hl o (.tail _ ho))
    exact this

theorem show_total : ∀ (l : List Part) (st : Stats), st.events < 18446744073709551616 →
    l.foldl stats_add st =
      { partitions := st.partitions + l.length
        local_ := st.local_ + (l.filter (·.state.id)).length
        cloud := st.cloud + (l.filter (·.state.cloud)).length
        events := wrapU64 ((st.events : Int) + (total (·.events) l : Nat)) }
  | [], st, h => by
    have : wrapU64 ((st.events : Int) + (total (·.events) [] : Nat)) = st.events := by
      simp only [total, List.map_nil, List.sum_nil]; unfold wrapU64; omega
    rw [this]; simp
  | p :: l, st, h => by
    have hn : (p.state.isNone = true) ↔ ¬ Stored p := by simp [Stored, isNone_iff]
    have ht : total (·.events) (p :: l) = (if Stored p then p.events else 0) + total (·.events) l := by
      simp [total]
    have hb : (stats_add st p).events < 18446744073709551616 := by
      unfold stats_add; dsimp only
      split
      · exact h
      · unfold wrapU64; omega
    rw [List.foldl_cons, show_total l _ hb, ht]
    have e1 : (stats_add st p).partitions + l.length = st.partitions + (p :: l).length := by
      simp only [stats_add, List.length_cons]; omega
    have e2 : (stats_add st p).local_ + (l.filter (·.state.id)).length = st.local_ + ((p :: l).filter (·.state.id)).length := by
      simp only [stats_add, List.filter_cons]
      split <;> simp <;> omega
    have e3 : (stats_add st p).cloud + (l.filter (·.state.cloud)).length = st.cloud + ((p :: l).filter (·.state.cloud)).length := by
      simp only [stats_add, List.filter_cons]
      split <;> simp <;> omega
    have e4 : wrapU64 (((stats_add st p).events : Int) + (total (·.events) l : Nat)) =
        wrapU64 ((st.events : Int) + ((if Stored p then p.events else 0) + total (·.events) l : Nat)) := by
      unfold stats_add
      dsimp only
      by_cases hs : Stored p
      · rw [if_neg (by rw [hn]; simpa using hs), if_pos hs]
        unfold wrapU64; omega
      · rw [if_pos (hn.2 hs), if_neg hs]
        simp
    rw [e1, e2, e3, e4]

end Verif.C38
