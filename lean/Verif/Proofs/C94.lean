import Verif.Spec.C94
import Verif.Proofs.C91World
import Verif.Proofs.C11

namespace Verif.C94
open Spec Io Reads RefreshReads
open C91 (bareSrc bareMerge IsMem Shape)

/-! ### Any file -/

/-- An iterator of any file has read its first regions, one after the other. -/
structure AInv (part : Nat) (p : PartFile) (f : File) : Prop where
  part_eq : f.part = part
  file : f.it.part = p
  index : f.it.index_it.index = p.index
  data : f.it.index_it.data = p.index_data
  log : ∀ r ∈ f.log, r.part = part ∧ p.index.get p.index_data r.pos = .ok r.region
  seq : ∃ n, f.log.map (·.pos) = List.range n ∧ n ≤ p.index.regions ∧
    (f.it.index_it.current ≠ none → n = f.it.index_it.pos + 1)

theorem index_next {it it' : IndexIterator} (h : it.next = .ok it') :
    it'.index = it.index ∧ it'.data = it.data ∧ it'.pos = it.pos + 1 ∧
      ∀ r, it'.current = some r → it.index.get it.data it'.pos = .ok r ∧ it'.pos < it.index.regions := by
  unfold IndexIterator.next at h
  dsimp only at h
  by_cases hr : it.index.regions ≤ it.pos + 1
  · rw [if_pos hr] at h
    cases h
    exact ⟨rfl, rfl, rfl, fun r hr => by cases hr⟩
  · rw [if_neg hr] at h
    obtain ⟨r, h1, h⟩ := Res.bind_eq_ok.1 h
    cases h
    refine ⟨rfl, rfl, rfl, fun x hx => ?_⟩
    cases hx
    exact ⟨h1, by show it.pos + 1 < _; omega⟩

theorem skip_any {cs : Codecs} {mc : MemCmp} {part : Nat} {p : PartFile} : ∀ (n : Nat) {f f' : File}, AInv part p f →
    f.it.index_it.current ≠ none → File.skip cs mc n f = .ok f' → AInv part p f' := by
  intro n
  induction n with
  | zero =>
    intro f f' hi hc h
    rw [File.skip.eq_def] at h
    cases hat : f.it.at_ with
    | some e => rw [hat] at h; cases h; exact hi
    | none =>
      rw [hat] at h
      dsimp only at h
      obtain ⟨ii, h1, h⟩ := Res.bind_eq_ok.1 h
      obtain ⟨g1, g2, g3, g4⟩ := index_next h1
      cases hcur : ii.current with
      | none =>
        rw [hcur] at h
        cases h
        obtain ⟨n, k1, k2, k3⟩ := hi.seq
        exact ⟨hi.part_eq, hi.file, g1.trans hi.index, g2.trans hi.data, hi.log, n, k1, k2, fun hn => absurd hcur hn⟩
      | some r => rw [hcur] at h; cases h
  | succ n ih =>
    intro f f' hi hc h
    rw [File.skip.eq_def] at h
    cases hat : f.it.at_ with
    | some e => rw [hat] at h; cases h; exact hi
    | none =>
      rw [hat] at h
      dsimp only at h
      obtain ⟨ii, h1, h⟩ := Res.bind_eq_ok.1 h
      obtain ⟨g1, g2, g3, g4⟩ := index_next h1
      obtain ⟨k, k1, k2, k3⟩ := hi.seq
      cases hcur : ii.current with
      | none =>
        rw [hcur] at h
        cases h
        exact ⟨hi.part_eq, hi.file, g1.trans hi.index, g2.trans hi.data, hi.log, k, k1, k2, fun hn => absurd hcur hn⟩
      | some r =>
        rw [hcur] at h
        dsimp only at h
        obtain ⟨rg, _, h⟩ := Res.bind_eq_ok.1 h
        obtain ⟨⟨ri, b⟩, _, h⟩ := Res.bind_eq_ok.1 h
        obtain ⟨q1, q2⟩ := g4 r hcur
        rw [hi.index, hi.data] at q1
        rw [hi.index] at q2
        have hk := k3 hc
        refine ih ?_ ?_ h
        rotate_left
        · show ii.current ≠ none
          rw [hcur]; simp
        refine ⟨hi.part_eq, hi.file, g1.trans hi.index, g2.trans hi.data, ?_, k + 1, ?_, ?_, ?_⟩
        · intro x hx
          rcases List.mem_append.1 hx with hx | hx
          · exact hi.log x hx
          · rw [List.mem_singleton] at hx
            subst hx
            exact ⟨hi.part_eq, q1⟩
        · show List.map _ (f.log ++ [_]) = _
          rw [List.map_append, k1, List.range_succ]
          simp only [List.map_cons, List.map_nil]
          rw [g3, hk]
        · omega
        · intro _
          show k + 1 = ii.pos + 1
          omega

theorem next_any {cs : Codecs} {mc : MemCmp} {part : Nat} {p : PartFile} {f f' : File} (hi : AInv part p f)
    (h : File.next cs mc f = .ok f') : AInv part p f' := by
  unfold File.next at h
  cases hc : f.it.index_it.current with
  | none => rw [hc] at h; cases h; exact hi
  | some r =>
    rw [hc] at h
    cases hr : f.it.region_it with
    | none => rw [hr] at h; cases h
    | some ri =>
      rw [hr] at h
      dsimp only at h
      obtain ⟨ri', _, h⟩ := Res.bind_eq_ok.1 h
      exact skip_any _ (f := { f with it := { f.it with region_it := some ri' } })
        ⟨hi.part_eq, hi.file, hi.index, hi.data, hi.log, hi.seq⟩ (by rw [hc]; simp) h

theorem open_any {cs : Codecs} {mc : MemCmp} {part : Nat} {p : PartFile} {f : File}
    (h : File.open_ cs mc part p none = .ok f) : AInv part p f := by
  unfold File.open_ at h
  obtain ⟨ii, h1, h⟩ := Res.bind_eq_ok.1 h
  have h1 : IndexIterator.open_ p.index p.index_data none = .ok ii := h1
  unfold IndexIterator.open_ at h1
  by_cases h0 : p.index.regions = 0
  · rw [if_pos h0] at h1
    cases h1
    cases h
    exact ⟨rfl, rfl, rfl, rfl, by simp, 0, rfl, by omega, fun hn => absurd rfl hn⟩
  · rw [if_neg h0] at h1
    obtain ⟨r, h2, h1⟩ := Res.bind_eq_ok.1 h1
    cases h1
    dsimp only at h
    obtain ⟨rg, _, h⟩ := Res.bind_eq_ok.1 h
    obtain ⟨⟨ri, b⟩, _, h⟩ := Res.bind_eq_ok.1 h
    cases h
    refine ⟨rfl, rfl, rfl, rfl, ?_, 1, rfl, by omega, fun _ => rfl⟩
    intro x hx
    rw [List.mem_singleton] at hx
    subst hx
    exact ⟨rfl, h2⟩

/-! ### The merge -/

theorem two_log {m : Merge Src} {s : Src} {f : File} (hs : IsMem s)
    (h : m.list.map (·.it) = [s, .file f]) : logOf m = f.log := by
  obtain ⟨a, b, rfl⟩ := hs
  rw [C91.logOf_its, h]
  simp [Src.log]

theorem start_two {cs : Codecs} {mc : MemCmp} {part : Nat} {mem : Memtable} {p : PartFile} {m : Merge Src}
    (h : start cs mc part mem p = .ok m) :
    ∃ s f, IsMem s ∧ File.open_ cs mc part p none = .ok f ∧ m.list.map (·.it) = [s, .file f] ∧
      (m.has = false → f.it.at_ = none) := by
  unfold start at h
  obtain ⟨⟨it, b⟩, _, h⟩ := Res.bind_eq_ok.1 h
  obtain ⟨f, hf, h⟩ := Res.bind_eq_ok.1 h
  obtain ⟨l, hl, e1, e2⟩ := C91.merge_its h
  rw [C91.advance_idle _ _ (by simp [Merge.add, Merge.init])] at hl
  cases hl
  have hits : m.list.map (·.it) = [.mem mem it, .file f] := by rw [e1]; simp [Merge.add, Merge.init]
  exact ⟨_, f, ⟨mem, it, rfl⟩, hf, hits, fun hh => e2 hh (.file f) (by rw [hits]; simp)⟩

theorem next_two {cs : Codecs} {mc : MemCmp} {m m' : Merge Src} {s : Src} {f : File} (hs : IsMem s)
    (hm : m.list.map (·.it) = [s, .file f]) (h : Merge.next mc (fns cs mc) m = .ok m') :
    ∃ s' f', IsMem s' ∧ (f' = f ∨ File.next cs mc f = .ok f') ∧ m'.list.map (·.it) = [s', .file f'] ∧
      (m'.has = false → f'.it.at_ = none) := by
  obtain ⟨l, hl, e1, e2⟩ := C91.merge_its h
  obtain ⟨a, b, hab, ha, hb⟩ := List.map_eq_append_iff.1 (show m.list.map (·.it) = [s] ++ [.file f] from hm)
  obtain ⟨r, rfl, hr⟩ : ∃ r, b = [r] ∧ r.it = .file f := by
    cases b with
    | nil => simp at hb
    | cons r b =>
      simp at hb
      exact ⟨r, by rw [hb.2], hb.1⟩
  obtain ⟨q, rfl, hq⟩ : ∃ q, a = [q] ∧ q.it = s := by
    cases a with
    | nil => simp at ha
    | cons q a =>
      simp at ha
      exact ⟨q, by rw [ha.2], ha.1⟩
  rw [hab] at hl
  obtain ⟨l1, r1, rfl, g1, g2⟩ := C91.advance_snoc _ [q] r l hl
  have hl1 := C91.advance_mem cs mc [q] l1 g1 (fun x hx => by
    rw [List.mem_singleton] at hx
    subst hx
    rw [hq]; exact hs)
  obtain ⟨l2, q1, rfl, g3, _⟩ := C91.advance_snoc _ [] q l1 g1
  cases g3
  have hits : m'.list.map (·.it) = [q1.it, r1.it] := by rw [e1]; rfl
  rw [hr] at g2
  have hf : ∃ f', r1.it = .file f' ∧ (f' = f ∨ File.next cs mc f = .ok f') := by
    rcases g2 with g2 | g2
    · exact ⟨f, g2, .inl rfl⟩
    · obtain ⟨f', hf', g2⟩ := Res.bind_eq_ok.1 g2
      exact ⟨f', (Res.ok.inj g2).symm, .inr hf'⟩
  obtain ⟨f', k1, k2⟩ := hf
  rw [k1] at hits
  exact ⟨q1.it, f', hl1 q1 (by simp), k2, hits, fun hh => e2 hh (.file f') (by rw [hits]; simp)⟩

/-- An iterator that the merge points to is at an event. -/
theorem pick_at {ι : Type} (mc : MemCmp) (f : IterFns ι) : ∀ (n : Nat) (done todo : List (MergeRef ι)) (min : Option (Nat × Event)),
    (∀ i e, min = some (i, e) → ∃ s, (done.map (·.it))[i]? = some s ∧ f.at' s ≠ none) →
    ∀ i e, (Merge.pick mc f n done todo min).2 = some (i, e) →
      ∃ s, ((done ++ todo).map (·.it))[i]? = some s ∧ f.at' s ≠ none := by
  intro n
  have hclear : ∀ l : List (MergeRef ι), (Merge.clear l).map (·.it) = l.map (·.it) := by
    intro l; unfold Merge.clear; rw [List.map_map]; rfl
  have hext : ∀ (l l' : List ι) (i : Nat), (∃ s, l[i]? = some s ∧ f.at' s ≠ none) →
      ∃ s, (l ++ l')[i]? = some s ∧ f.at' s ≠ none := by
    rintro l l' i ⟨s, h1, h2⟩
    refine ⟨s, ?_, h2⟩
    obtain ⟨hi, _⟩ := List.getElem?_eq_some_iff.1 h1
    rw [List.getElem?_append_left hi, h1]
  induction n with
  | zero =>
    intro done todo min h i e hp
    rw [List.map_append]
    exact hext _ _ _ (h i e hp)
  | succ n ih =>
    intro done todo min h i e hp
    cases todo with
    | nil =>
      rw [List.append_nil]
      exact h i e hp
    | cons r todo =>
      rw [Merge.pick] at hp
      cases hr : f.at' r.it with
      | none =>
        rw [hr] at hp
        dsimp only at hp
        have := ih (done ++ [r]) todo min (fun i e hm => by rw [List.map_append]; exact hext _ _ _ (h i e hm)) i e hp
        rwa [List.append_assoc] at this
      | some row =>
        rw [hr] at hp
        dsimp only at hp
        have hnew : ∃ s, ((done ++ [r]).map (·.it))[done.length]? = some s ∧ f.at' s ≠ none :=
          ⟨r.it, by simp, by rw [hr]; simp⟩
        have key : ∀ (d t : List (MergeRef ι)) (mn : Option (Nat × Event)), d.map (·.it) = (done ++ [r]).map (·.it) →
            t.map (·.it) = todo.map (·.it) →
            (∀ i e, mn = some (i, e) → ∃ s, ((done ++ [r]).map (·.it))[i]? = some s ∧ f.at' s ≠ none) →
            (Merge.pick mc f n d t mn).2 = some (i, e) →
            ∃ s, ((done ++ r :: todo).map (·.it))[i]? = some s ∧ f.at' s ≠ none := by
          intro d t mn hd ht hmn hh
          have := ih d t mn (by rw [hd]; exact hmn) i e hh
          rw [List.map_append, hd, ht, ← List.map_append, List.append_assoc] at this
          exact this
        cases min with
        | none =>
          exact key _ _ _ (by simp) rfl (fun i e hm => by cases hm; exact hnew) hp
        | some q =>
          dsimp only at hp
          have hold : ∀ i e, some q = some (i, e) → ∃ s, ((done ++ [r]).map (·.it))[i]? = some s ∧ f.at' s ≠ none :=
            fun i e hm => by rw [List.map_append]; exact hext _ _ _ (h i e hm)
          split at hp
          · exact key _ _ _ (by simp) rfl hold hp
          · split at hp
            · exact key _ _ _ (by simp [hclear]) (hclear _) (fun i e hm => by cases hm; exact hnew) hp
            · exact key _ _ _ (by simp) rfl hold hp

/-- A merge that shows nothing is at its end. -/
theorem at_end {cs : Codecs} {mc : MemCmp} {m m' : Merge Src} (h : Merge.next mc (fns cs mc) m = .ok m')
    (ha : m'.at' (fns cs mc) = .ok none) : m'.has = false := by
  unfold Merge.next at h
  obtain ⟨l, hl, h⟩ := Res.bind_eq_ok.1 h
  have h1 := C91.pick_its mc (fns cs mc) l.length [] l none
  have h2 := pick_at mc (fns cs mc) l.length [] l none (fun i e hm => by cases hm)
  rcases hp : Merge.pick mc (fns cs mc) l.length [] l none with ⟨l', min⟩
  rw [hp] at h h1 h2
  cases h
  cases min with
  | none => rfl
  | some q =>
    exfalso
    obtain ⟨s, k1, k2⟩ := h2 q.1 q.2 rfl
    rw [← h1, List.getElem?_map] at k1
    unfold Merge.at' at ha
    dsimp only [Option.map] at ha
    cases hq : l'[q.1]? with
    | none => rw [hq] at k1; cases k1
    | some r =>
      dsimp only at k1
      rw [hq] at ha k1
      dsimp only [Option.map] at ha k1
      cases k1
      exact k2 (Res.ok.inj ha)

theorem states_end {cs : Codecs} {mc : MemCmp} {part : Nat} {mem : Memtable} {p : PartFile} {m : Merge Src}
    (h : States cs mc part mem p m) (ha : m.at' (fns cs mc) = .ok none) : m.has = false := by
  cases h with
  | opened h =>
    unfold start at h
    obtain ⟨⟨it, b⟩, _, h⟩ := Res.bind_eq_ok.1 h
    obtain ⟨f, hf, h⟩ := Res.bind_eq_ok.1 h
    exact at_end h ha
  | moved _ h => exact at_end h ha

/-- What holds of an opened file and is kept by its steps holds in all states. -/
theorem states_inv {cs : Codecs} {mc : MemCmp} {part : Nat} {mem : Memtable} {p : PartFile} {P : File → Prop}
    (h0 : ∀ f, File.open_ cs mc part p none = .ok f → P f) (h1 : ∀ f f', P f → File.next cs mc f = .ok f' → P f')
    {m : Merge Src} (h : States cs mc part mem p m) :
    ∃ s f, IsMem s ∧ P f ∧ m.list.map (·.it) = [s, .file f] ∧ (m.has = false → f.it.at_ = none) := by
  induction h with
  | opened h =>
    obtain ⟨s, f, k1, k2, k3, k4⟩ := start_two h
    exact ⟨s, f, k1, h0 f k2, k3, k4⟩
  | moved _ h ih =>
    obtain ⟨s, f, k1, k2, k3, _⟩ := ih
    obtain ⟨s', f', g1, g2, g3, g4⟩ := next_two k1 k3 h
    refine ⟨s', f', g1, ?_, g3, g4⟩
    rcases g2 with rfl | g2
    · exact k2
    · exact h1 f f' k2 g2

/-- The loop ends in a state of the merge that shows nothing. -/
theorem written_end {cs : Codecs} {mc : MemCmp} {part : Nat} {mem : Memtable} {p : PartFile} : ∀ (n : Nat) {m m' : Merge Src}
    {es : List Event}, States cs mc part mem p m → written cs mc n m = .ok (es, m') →
    States cs mc part mem p m' ∧ m'.at' (fns cs mc) = .ok none := by
  intro n
  induction n with
  | zero =>
    intro m m' es hs h
    rw [written] at h
    obtain ⟨e, h1, h⟩ := Res.bind_eq_ok.1 h
    cases e with
    | none => cases h; exact ⟨hs, h1⟩
    | some e => cases h
  | succ n ih =>
    intro m m' es hs h
    rw [written] at h
    obtain ⟨e, h1, h⟩ := Res.bind_eq_ok.1 h
    cases e with
    | none => cases h; exact ⟨hs, h1⟩
    | some e =>
      obtain ⟨m1, h2, h⟩ := Res.bind_eq_ok.1 h
      obtain ⟨⟨es1, m2⟩, h3, h⟩ := Res.bind_eq_ok.1 h
      cases h
      exact ih (.moved hs h2) h3

theorem execute_end {cs : Codecs} {mc : MemCmp} {fuel part : Nat} {mem : Memtable} {p : PartFile} {es : List Event}
    {log : List Read} (h : execute cs mc fuel part mem p = .ok (es, log)) :
    ∃ m, States cs mc part mem p m ∧ m.has = false ∧ log = logOf m := by
  unfold execute at h
  obtain ⟨m, h1, h⟩ := Res.bind_eq_ok.1 h
  obtain ⟨⟨es', m'⟩, h2, h⟩ := Res.bind_eq_ok.1 h
  cases h
  obtain ⟨k1, k2⟩ := written_end fuel (.opened h1) h2
  exact ⟨m', k1, states_end k1 k2, rfl⟩

/-! ### A file that was written -/

theorem rep_of {cs : Codecs} {ms : List EventMem} {p : PartFile} (h : OldWithin cs ms p) : ∃ rs, C91.Good cs p rs := by
  rcases h with ⟨h1, h2, h3⟩ | rfl
  · obtain ⟨rs, k1, k2, _⟩ := Cursor.file_rep h1 h2 h3
    exact ⟨rs, C91.good_of k1 (by rw [k2]; exact h3)⟩
  · exact ⟨[], ⟨⟨rfl, by simp⟩, by simp⟩⟩

/-- The partition of `C91.P`: only its smallest id counts. -/
def slice (part : Nat) (mem : Memtable) : Slice Cursor.CPart := ⟨part, part, ⟨mem, mem, none⟩⟩

theorem open_P {cs : Codecs} {mc : MemCmp} {p : PartFile} {rs : List (List Event)} (hg : C91.Good cs p rs)
    {part : Nat} {mem : Memtable} {f : File} (h : File.open_ cs mc part p none = .ok f) :
    C91.P cs (slice part mem) none p f ∧ f.log.length ≤ 1 := by
  obtain ⟨⟨ii, h1, h2⟩, h3, _⟩ := C91.open_log (K := none) hg.rep (fun _ => rfl) h
  have h0 : ii.pos = 0 := by
    have h1 : IndexIterator.open_ p.index p.index_data none = .ok ii := h1
    unfold IndexIterator.open_ at h1
    by_cases hr : p.index.regions = 0
    · rw [if_pos hr] at h1; cases h1; rfl
    · rw [if_neg hr] at h1
      obtain ⟨r, _, h1⟩ := Res.bind_eq_ok.1 h1
      cases h1; rfl
  exact ⟨⟨rs, ii.pos, hg, h2, fun _ => h0, fun k hk => by cases hk⟩, h3⟩

theorem reads_of {cs : Codecs} {mc : MemCmp} {part : Nat} {mem : Memtable} {p : PartFile} {rs : List (List Event)}
    (hg : C91.Good cs p rs) : Reads cs mc part mem p := by
  have inv : ∀ {m}, States cs mc part mem p m → ∃ s f, IsMem s ∧ (C91.P cs (slice part mem) none p f ∧ AInv part p f) ∧
      m.list.map (·.it) = [s, .file f] ∧ (m.has = false → f.it.at_ = none) := fun h =>
    states_inv (P := fun f => C91.P cs (slice part mem) none p f ∧ AInv part p f)
      (fun f hf => ⟨(open_P hg hf).1, open_any hf⟩)
      (fun f f' hf hn => ⟨(C91.P_next p f f' hf.1 hn).1, next_any hf.2 hn⟩) h
  refine ⟨?_, ?_, ?_⟩
  · intro fuel es log h
    obtain ⟨m, h1, h2, rfl⟩ := execute_end h
    obtain ⟨s, f, k1, ⟨k2, k3⟩, k4, k5⟩ := inv h1
    rw [two_log k1 k4]
    obtain ⟨n, q1, q2, _⟩ := k3.seq
    refine ⟨?_, k3.log⟩
    rw [q1]
    have hle : p.index.regions ≤ n := by
      rcases Nat.lt_or_ge n p.index.regions with hlt | hge
      · obtain ⟨r, hr, _, hp⟩ := C91.P_all k2 (k5 h2) n hlt
        have : n ∈ f.log.map (·.pos) := List.mem_map.2 ⟨r, hr, hp⟩
        rw [q1, List.mem_range] at this
        omega
      · exact hge
    rw [Nat.le_antisymm q2 hle]
  · intro m h
    obtain ⟨s, f, k1, k2, k3, _⟩ := start_two h
    rw [two_log k1 k3]
    have := (open_P (mem := mem) hg k2).2
    unfold OneMore
    match f.log, this with
    | [], _ => exact .inl rfl
    | [r], _ => exact .inr ⟨r, rfl⟩
  · intro m h
    obtain ⟨s, f, k1, ⟨k2, _⟩, k4, _⟩ := inv h
    refine ⟨?_, ?_⟩
    · intro r hr g hg' e he
      have : r.it ∈ m.list.map (·.it) := List.mem_map.2 ⟨r, hr, rfl⟩
      rw [k4, hg'] at this
      rcases List.mem_cons.1 this with h0 | h0
      · obtain ⟨a, b, rfl⟩ := k1
        cases h0
      · rw [List.mem_singleton] at h0
        cases h0
        exact C91.P_ahead k2 he
    · intro m' hn
      obtain ⟨s', f', g1, g2, g3, _⟩ := next_two k1 k4 hn
      rw [two_log k1 k4, two_log g1 g3]
      rcases g2 with rfl | g2
      · exact .inl rfl
      · rcases (C91.P_next p f f' k2 g2).2 with h | ⟨h, _⟩
        · exact .inl h
        · exact .inr h

/-! ### Without the notes -/

theorem at_same (cs : Codecs) (mc : MemCmp) (m : Merge Src) : (bareMerge m).at' (Cursor.fns cs mc) = m.at' (fns cs mc) := by
  unfold Merge.at' bareMerge
  cases m.current with
  | none => rfl
  | some i =>
    dsimp only
    rw [List.getElem?_map]
    cases m.list[i]? with
    | none => rfl
    | some r => exact congrArg Res.ok (C91.fns_at cs mc r.it)

theorem written_same (cs : Codecs) (mc : MemCmp) : ∀ (n : Nat) (m : Merge Src),
    Merger.written mc (Cursor.fns cs mc) n (bareMerge m) = (written cs mc n m).map (·.1) := by
  intro n
  induction n with
  | zero =>
    intro m
    rw [Merger.written, written, at_same, C91.map_bind]
    refine C91.bind_cong fun e => ?_
    cases e <;> rfl
  | succ n ih =>
    intro m
    rw [Merger.written, written, at_same, C91.map_bind]
    refine C91.bind_cong fun e => ?_
    cases e with
    | none => rfl
    | some e =>
      dsimp only
      rw [C91.merge_same, C91.bind_map, C91.map_bind]
      refine C91.bind_cong fun m' => ?_
      rw [ih, C91.bind_map, C91.map_bind]
      exact C91.bind_cong fun _ => rfl

theorem execute_same (cs : Codecs) (mc : MemCmp) (fuel part : Nat) (mem : Memtable) (p : PartFile) :
    ((Memtable.iterOpen mc mem none).bind fun (mi, _) =>
      (PartIterator.open_ cs mc p none).bind fun (fi, _) =>
      Merger.execute mc (Cursor.fns cs mc) fuel (.mem mem mi) (.file fi)) =
    (execute cs mc fuel part mem p).map (·.1) := by
  unfold execute start
  rw [C91.map_bind]
  cases Memtable.iterOpen mc mem none with
  | err m => rfl
  | abort m => rfl
  | ub m => rfl
  | ok x =>
    simp only [Res.bind_ok]
    have e1 : ((PartIterator.open_ cs mc p none).bind fun (y : PartIterator × Bool) =>
        Merger.execute mc (Cursor.fns cs mc) fuel (.mem mem x.1) (.file y.1)) =
        ((PartIterator.open_ cs mc p none).map (·.1)).bind fun fi =>
          Merger.execute mc (Cursor.fns cs mc) fuel (.mem mem x.1) (.file fi) := by
      rw [C91.bind_map]
    refine Eq.trans e1 ?_
    rw [C91.file_open cs mc part p none, C91.bind_map]
    cases File.open_ cs mc part p none with
    | err m => rfl
    | abort m => rfl
    | ub m => rfl
    | ok f =>
      simp only [Res.bind_ok]
      unfold Merger.execute Merge.openIt
      have e2 : Merge.add (Merge.add Merge.init (.mem mem x.1)) (.file f.it) =
          bareMerge (Merge.add (Merge.add Merge.init (.mem mem x.1)) (.file f)) := rfl
      rw [e2, C91.merge_same, C91.bind_map]
      refine C91.bind_cong fun m => ?_
      rw [written_same, C91.map_bind]
      cases written cs mc fuel m <;> rfl

end Verif.C94
