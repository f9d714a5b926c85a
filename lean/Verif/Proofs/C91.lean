import Verif.Proofs.C91File

/-! The regions read by a cursor of a partition and of the engine. -/
namespace Verif.C91
open Spec Io Reads
open Cursor (CPart)

theorem pick_its {ι : Type} (mc : MemCmp) (f : IterFns ι) : ∀ (n : Nat) (done todo : List (MergeRef ι)) (min : Option (Nat × Event)),
    ((Merge.pick mc f n done todo min).1).map (·.it) = (done ++ todo).map (·.it) := by
  intro n
  have hclear : ∀ l : List (MergeRef ι), (Merge.clear l).map (·.it) = l.map (·.it) := by
    intro l; unfold Merge.clear; rw [List.map_map]; rfl
  induction n with
  | zero => intro done todo min; rfl
  | succ n ih =>
    intro done todo min
    cases todo with
    | nil => simp [Merge.pick]
    | cons r todo =>
      rw [Merge.pick]
      cases f.at' r.it with
      | none => dsimp only; rw [ih]; simp
      | some row =>
        dsimp only
        cases min with
        | none => dsimp only; rw [ih]; simp
        | some p =>
          dsimp only
          split
          · rw [ih]; simp
          · split
            · rw [ih]; simp [hclear]
            · rw [ih]; simp

theorem pick_some {ι : Type} (mc : MemCmp) (f : IterFns ι) : ∀ (n : Nat) (done todo : List (MergeRef ι)) (min : Option (Nat × Event)),
    todo.length ≤ n → (min.isSome ∨ ∃ s ∈ todo.map (·.it), f.at' s ≠ none) →
    (Merge.pick mc f n done todo min).2.isSome := by
  intro n
  have hclear : ∀ l : List (MergeRef ι), (Merge.clear l).map (·.it) = l.map (·.it) := by
    intro l; unfold Merge.clear; rw [List.map_map]; rfl
  have hlen : ∀ l : List (MergeRef ι), (Merge.clear l).length = l.length := by
    intro l; unfold Merge.clear; rw [List.length_map]
  induction n with
  | zero =>
    intro done todo min hl h
    have : todo = [] := List.length_eq_zero_iff.1 (by omega)
    subst this
    simpa [Merge.pick] using h
  | succ n ih =>
    intro done todo min hl h
    cases todo with
    | nil => simpa [Merge.pick] using h
    | cons r todo =>
      rw [List.length_cons] at hl
      rw [Merge.pick]
      cases hr : f.at' r.it with
      | none =>
        dsimp only
        refine ih _ _ _ (by omega) ?_
        rcases h with h | ⟨s, hs, hne⟩
        · exact .inl h
        · rw [List.map_cons, List.mem_cons] at hs
          rcases hs with rfl | hs
          · exact absurd hr hne
          · exact .inr ⟨s, hs, hne⟩
      | some row =>
        dsimp only
        cases min with
        | none => exact ih _ _ _ (by omega) (.inl rfl)
        | some p =>
          dsimp only
          split
          · exact ih _ _ _ (by omega) (.inl rfl)
          · split
            · exact ih _ _ _ (by rw [hlen]; omega) (.inl rfl)
            · exact ih _ _ _ (by omega) (.inl rfl)

theorem advance_snoc {ι : Type} (f : IterFns ι) : ∀ (l : List (MergeRef ι)) (r : MergeRef ι) (l' : List (MergeRef ι)),
    Merge.advanceAll f (l ++ [r]) = .ok l' →
    ∃ l1 r1, l' = l1 ++ [r1] ∧ Merge.advanceAll f l = .ok l1 ∧ (r1.it = r.it ∨ f.next r.it = .ok r1.it) := by
  intro l
  induction l with
  | nil =>
    intro r l' h
    simp only [List.nil_append, Merge.advanceAll, Res.bind_ok] at h
    obtain ⟨r1, h1, h⟩ := Res.bind_eq_ok.1 h
    cases h
    refine ⟨[], r1, rfl, rfl, ?_⟩
    by_cases ha : r.advance = true
    · rw [if_pos ha] at h1
      obtain ⟨it, hit, h1⟩ := Res.bind_eq_ok.1 h1
      cases h1
      exact .inr hit
    · rw [if_neg ha] at h1
      cases h1
      exact .inl rfl
  | cons x l ih =>
    intro r l' h
    rw [List.cons_append, Merge.advanceAll] at h
    obtain ⟨x1, h1, h⟩ := Res.bind_eq_ok.1 h
    obtain ⟨l2, h2, h⟩ := Res.bind_eq_ok.1 h
    cases h
    obtain ⟨l1, r1, rfl, h3, h4⟩ := ih r l2 h2
    refine ⟨x1 :: l1, r1, rfl, ?_, h4⟩
    rw [Merge.advanceAll, h1, Res.bind_ok, h3, Res.bind_ok]

/-- The iterator of a memory table. -/
def IsMem (s : Src) : Prop := ∃ m it, s = .mem m it

theorem advance_mem (cs : Codecs) (mc : MemCmp) : ∀ (l l' : List (MergeRef Src)),
    Merge.advanceAll (fns cs mc) l = .ok l' → (∀ r ∈ l, IsMem r.it) → ∀ r ∈ l', IsMem r.it := by
  intro l
  induction l with
  | nil => intro l' h _; cases h; simp
  | cons x l ih =>
    intro l' h hm
    rw [Merge.advanceAll] at h
    obtain ⟨x1, h1, h⟩ := Res.bind_eq_ok.1 h
    obtain ⟨l2, h2, h⟩ := Res.bind_eq_ok.1 h
    cases h
    intro r hr
    rcases List.mem_cons.1 hr with rfl | hr
    · by_cases ha : x.advance = true
      · rw [if_pos ha] at h1
        obtain ⟨it, hit, h1⟩ := Res.bind_eq_ok.1 h1
        cases h1
        obtain ⟨m, mit, hx⟩ := hm x (by simp)
        rw [hx] at hit
        obtain ⟨it2, _, hit⟩ := Res.bind_eq_ok.1 hit
        cases hit
        exact ⟨m, it2, rfl⟩
      · rw [if_neg ha] at h1
        cases h1
        exact hm x (by simp)
    · exact ih l2 h2 (fun r hr => hm r (by simp [hr])) r hr

theorem advance_idle {ι : Type} (f : IterFns ι) : ∀ (l : List (MergeRef ι)), (∀ r ∈ l, r.advance = false) →
    Merge.advanceAll f l = .ok l := by
  intro l
  induction l with
  | nil => intro _; rfl
  | cons x l ih =>
    intro h
    rw [Merge.advanceAll, if_neg (by rw [h x (by simp)]; decide), Res.bind_ok, ih fun r hr => h r (by simp [hr]), Res.bind_ok]

/-- The iterators of a partition: those of tables, then the one of its file. -/
structure Shape (P : PartFile → File → Prop) (file : Option PartFile) (its : List Src) (log : List Read) : Prop where
  ex : ∃ ms : List Src, (∀ s ∈ ms, IsMem s) ∧
    ((file = none ∧ its = ms ∧ log = []) ∨ ∃ p f, file = some p ∧ its = ms ++ [.file f] ∧ log = f.log ∧ P p f)

theorem log_mem {ms : List Src} (h : ∀ s ∈ ms, IsMem s) : ms.flatMap (·.log) = [] := by
  rw [List.flatMap_eq_nil_iff]
  intro s hs
  obtain ⟨m, it, rfl⟩ := h s hs
  rfl

theorem logOf_its (m : Merge Src) : logOf m = (m.list.map (·.it)).flatMap (·.log) := by
  unfold logOf
  rw [List.flatMap_map]

theorem shape_log {P : PartFile → File → Prop} {file : Option PartFile} {m : Merge Src} {log : List Read}
    (h : Shape P file (m.list.map (·.it)) log) : logOf m = log := by
  obtain ⟨ms, hm, ⟨_, h2, h3⟩ | ⟨p, f, _, h2, h3, _⟩⟩ := h.ex
  · rw [logOf_its, h2, log_mem hm, h3]
  · rw [logOf_its, h2, List.flatMap_append, log_mem hm, h3]
    simp [Src.log]

theorem merge_its {cs : Codecs} {mc : MemCmp} {m m' : Merge Src} (h : Merge.next mc (fns cs mc) m = .ok m') :
    ∃ l, Merge.advanceAll (fns cs mc) m.list = .ok l ∧ m'.list.map (·.it) = l.map (·.it) ∧
      (m'.has = false → ∀ s ∈ m'.list.map (·.it), (fns cs mc).at' s = none) := by
  unfold Merge.next at h
  obtain ⟨l, hl, h⟩ := Res.bind_eq_ok.1 h
  have h1 := pick_its mc (fns cs mc) l.length [] l none
  have h2 := pick_some mc (fns cs mc) l.length [] l none (Nat.le_refl _)
  rcases hp : Merge.pick mc (fns cs mc) l.length [] l none with ⟨l', min⟩
  rw [hp] at h h1 h2
  cases h
  refine ⟨l, hl, h1, fun hh s hs => ?_⟩
  have hh' : (min.map (·.1)).isSome = false := hh
  by_cases hn : (fns cs mc).at' s = none
  · exact hn
  · have := h2 (.inr ⟨s, by
      have h1' : l'.map (·.it) = l.map (·.it) := h1
      rw [← h1']; exact hs, hn⟩)
    have h3 : min.isSome = true := this
    rw [Option.isSome_map, h3] at hh'
    cases hh'

/-- A step of the merge reads nothing, or one region and has an event then. -/
theorem merge_log {cs : Codecs} {mc : MemCmp} {P : PartFile → File → Prop}
    (hP : ∀ p f f', P p f → File.next cs mc f = .ok f' →
      P p f' ∧ (f'.log = f.log ∨ ((∃ r, f'.log = f.log ++ [r]) ∧ f'.it.at_ ≠ none)))
    {file : Option PartFile} {m m' : Merge Src} {log : List Read} (hs : Shape P file (m.list.map (·.it)) log)
    (h : Merge.next mc (fns cs mc) m = .ok m') :
    ∃ log', Shape P file (m'.list.map (·.it)) log' ∧ (log' = log ∨ ((∃ r, log' = log ++ [r]) ∧ m'.has = true)) := by
  obtain ⟨l, hl, h1, h2⟩ := merge_its h
  obtain ⟨ms, hm, ⟨e1, e2, e3⟩ | ⟨p, f, e1, e2, e3, e4⟩⟩ := hs.ex
  · refine ⟨[], ⟨m'.list.map (·.it), ?_, .inl ⟨e1, rfl, rfl⟩⟩, .inl e3.symm⟩
    rw [h1]
    have := advance_mem cs mc m.list l hl (fun r hr => hm _ (by rw [← e2]; exact List.mem_map.2 ⟨r, hr, rfl⟩))
    intro s hs
    obtain ⟨r, hr, rfl⟩ := List.mem_map.1 hs
    exact this r hr
  · obtain ⟨a, b, hab, ha, hb⟩ := List.map_eq_append_iff.1 e2
    obtain ⟨r, rfl, hr⟩ : ∃ r, b = [r] ∧ r.it = .file f := by
      cases b with
      | nil => simp at hb
      | cons r b =>
        simp at hb
        exact ⟨r, by rw [hb.2], hb.1⟩
    rw [hab] at hl
    obtain ⟨l1, r1, rfl, g1, g2⟩ := advance_snoc _ a r l hl
    have hl1 := advance_mem cs mc a l1 g1 (fun x hx => hm _ (by rw [← ha]; exact List.mem_map.2 ⟨x, hx, rfl⟩))
    have hl1' : ∀ s ∈ l1.map (·.it), IsMem s := by
      intro s hs
      obtain ⟨x, hx, rfl⟩ := List.mem_map.1 hs
      exact hl1 x hx
    rw [hr] at g2
    rcases g2 with g2 | g2
    · refine ⟨f.log, ⟨l1.map (·.it), hl1', .inr ⟨p, f, e1, ?_, rfl, e4⟩⟩, .inl e3.symm⟩
      rw [h1, List.map_append, List.map_cons, List.map_nil, g2]
    · obtain ⟨f', hf', g2⟩ := Res.bind_eq_ok.1 g2
      have g2 := (Res.ok.inj g2).symm
      obtain ⟨q1, q2⟩ := hP p f f' e4 hf'
      have hits : m'.list.map (·.it) = l1.map (·.it) ++ [.file f'] := by
        rw [h1, List.map_append, List.map_cons, List.map_nil, g2]
      refine ⟨f'.log, ⟨l1.map (·.it), hl1', .inr ⟨p, f', e1, hits, rfl, q1⟩⟩, ?_⟩
      rcases q2 with q2 | ⟨⟨x, q2⟩, q3⟩
      · exact .inl (q2.trans e3.symm)
      · refine .inr ⟨⟨x, by rw [q2, e3]⟩, ?_⟩
        cases hh : m'.has with
        | true => rfl
        | false =>
          have := h2 hh (.file f') (by rw [hits]; simp)
          exact absurd this q3

theorem add_its (m : Merge Src) (s : Src) : (m.add s).list.map (·.it) = m.list.map (·.it) ++ [s] := by
  simp [Merge.add]

/-- A merge of tables that was not started. -/
def Fresh (m : Merge Src) : Prop := (∀ s ∈ m.list.map (·.it), IsMem s) ∧ ∀ r ∈ m.list, r.advance = false

theorem addMem_fresh {mc : MemCmp} {m : Memtable} {key : Option Event} {mi mi' : Merge Src} (h : Fresh mi)
    (ha : addMem mc m key mi = .ok mi') : Fresh mi' := by
  unfold addMem at ha
  by_cases hc : m.count > 0
  · rw [if_pos hc] at ha
    obtain ⟨⟨it, b⟩, _, ha⟩ := Res.bind_eq_ok.1 ha
    cases ha
    refine ⟨fun s hs => ?_, fun r hr => ?_⟩
    · rw [add_its] at hs
      rcases List.mem_append.1 hs with hs | hs
      · exact h.1 s hs
      · simp only [List.mem_singleton] at hs
        exact ⟨m, it, hs⟩
    · rcases List.mem_append.1 hr with hr | hr
      · exact h.2 r hr
      · simp only [List.mem_singleton] at hr
        subst hr; rfl
  · rw [if_neg hc] at ha
    cases ha
    exact h

/-- Opening a partition reads at most one region of its file; without a key there
is an event then. -/
theorem partOpen_log {cs : Codecs} {mc : MemCmp} {P : PartFile → File → Prop} {s : Slice CPart} {key : Option Event}
    (hP : ∀ p f, s.val.file = some p → File.open_ cs mc s.min p key = .ok f →
      P p f ∧ f.log.length ≤ 1 ∧ (key = none → f.log ≠ [] → f.it.at_ ≠ none))
    {m : Merge Src} (h : partOpen cs mc s key = .ok m) :
    ∃ log, Shape P s.val.file (m.list.map (·.it)) log ∧ log.length ≤ 1 ∧ (key = none → log ≠ [] → m.has = true) := by
  unfold partOpen at h
  obtain ⟨m1, h1, h⟩ := Res.bind_eq_ok.1 h
  obtain ⟨m2, h2, h⟩ := Res.bind_eq_ok.1 h
  obtain ⟨m3, h3, h⟩ := Res.bind_eq_ok.1 h
  have f2 := addMem_fresh (addMem_fresh (mi := Merge.init) ⟨by simp [Merge.init], by simp [Merge.init]⟩ h1) h2
  obtain ⟨l, hl, e1, e2⟩ := merge_its h
  unfold addFile at h3
  cases hf : s.val.file with
  | none =>
    rw [hf] at h3
    cases h3
    rw [advance_idle _ _ f2.2] at hl
    cases hl
    exact ⟨[], ⟨m.list.map (·.it), by rw [e1]; exact f2.1, .inl ⟨rfl, rfl, rfl⟩⟩, by simp, fun _ h => absurd rfl h⟩
  | some p =>
    rw [hf] at h3
    obtain ⟨f, h5, h4⟩ := Res.bind_eq_ok.1 h3
    cases h4
    obtain ⟨q1, q2, q3⟩ := hP p f hf h5
    rw [advance_idle _ _ (by
      intro r hr
      rcases List.mem_append.1 hr with hr | hr
      · exact f2.2 r hr
      · simp only [List.mem_singleton] at hr
        subst hr; rfl)] at hl
    cases hl
    have hits : m.list.map (·.it) = m2.list.map (·.it) ++ [.file f] := by rw [e1, add_its]
    refine ⟨f.log, ⟨m2.list.map (·.it), f2.1, .inr ⟨p, f, rfl, hits, rfl, q1⟩⟩, q2, fun hk hne => ?_⟩
    cases hh : m.has with
    | true => rfl
    | false =>
      have := e2 hh (.file f) (by rw [hits]; simp)
      exact absurd this (q3 hk hne)

end Verif.C91
