import Verif.Spec.C12
import Verif.Spec.C08
import Verif.Proofs.C03
import Verif.Proofs.C07
import Verif.Proofs.C13
import Verif.Proofs.PartScan

namespace Verif.Cursor
open Spec Io

/-! ### The sources -/

theorem mem_yields (cs : Codecs) (mc : MemCmp) (m : Memtable) : ∀ (fuel : Nat) (it : MIter) (L : List Event),
    Memtable.iterAll m fuel it = .ok L → C13.Yields (fns cs mc) (.mem m it) L
  | 0, it, L, h => by
    unfold Memtable.iterAll at h
    cases hc : it.current with
    | none => rw [hc] at h; cases h; exact hc
    | some e => rw [hc] at h; cases h
  | n + 1, it, L, h => by
    unfold Memtable.iterAll at h
    cases hc : it.current with
    | none => rw [hc] at h; cases h; exact hc
    | some e =>
      rw [hc] at h
      dsimp only at h
      rw [Res.bind_eq_ok] at h
      obtain ⟨it', h1, h2⟩ := h
      rw [Res.bind_eq_ok] at h2
      obtain ⟨es, h3, h4⟩ := h2
      cases h4
      exact ⟨hc, .mem m it', by simp [fns, h1], mem_yields cs mc m n it' es h3⟩

theorem file_yields (cs : Codecs) (mc : MemCmp) {it : PartIterator} {L : List Event}
    (h : Yields PartIterator.at_ (PartIterator.next cs mc) it L) : C13.Yields (fns cs mc) (.file it) L := by
  induction h with
  | done h => exact h
  | more h1 h2 _ ih => exact ⟨h1, _, by simp [fns, h2], ih⟩

/-! ### Reading a merge step by step -/

/-- The merge is on the first event of the list and goes on to the others; at the
end it stays there. -/
def MSteps {ι : Type} (mc : MemCmp) (f : IterFns ι) : Merge ι → List Event → Prop
  | m, [] => m.at' f = .ok none ∧ m.has = false ∧ ∃ m', Merge.next mc f m = .ok m' ∧ m'.has = false
  | m, e :: M => m.has = true ∧ m.at' f = .ok (some e) ∧ ∃ m', Merge.next mc f m = .ok m' ∧ MSteps mc f m' M

theorem MSteps.has_nil {ι : Type} {mc : MemCmp} {f : IterFns ι} {m : Merge ι} (h : MSteps mc f m []) :
    m.has = false := h.2.1

theorem next_end {ι : Type} (mc : MemCmp) (f : IterFns ι) {base : Nat} {m : Merge ι} {Ls : List (List Event)}
    (hp : C13.Pending f m.list Ls) (hw : ∀ L ∈ Ls, Ascending L ∧ ∀ e ∈ L, C13.Window base e)
    {m' : Merge ι} (hn : Merge.next mc f m = .ok m') (hh : m'.has = false) : C13.Pending f m'.list Ls := by
  obtain ⟨list', e1, h1⟩ := C13.advanceAll_spec f m.list Ls hp
  have hb := C13.pick_spec mc f (base := base) list' [] [] Ls none h1 (by simpa using hw) trivial
  unfold Merge.next at hn
  rw [e1, Res.bind_ok] at hn
  generalize Merge.pick mc f list'.length [] list' none = pr at hb hn
  obtain ⟨l2, min⟩ := pr
  rw [List.nil_append] at hb
  dsimp only at hn
  cases hn
  cases min with
  | some im => simp [Merge.has] at hh
  | none =>
    dsimp only [C13.Best] at hb
    exact C13.All2.mono (fun r L h => by
      obtain ⟨h1, h2, h3⟩ := h
      simp only [h2]
      exact h1) hb

theorem merge_steps {ι : Type} (mc : MemCmp) (f : IterFns ι) {base : Nat} :
    ∀ (n : Nat) (m : Merge ι) (Ls : List (List Event)), Ls.flatten.length ≤ n →
      C13.Pending f m.list Ls → (∀ L ∈ Ls, Ascending L ∧ ∀ e ∈ L, C13.Window base e) →
      ∃ m' M, Merge.next mc f m = .ok m' ∧ C13.Merged Ls M ∧ MSteps mc f m' M := by
  intro n
  induction n with
  | zero =>
    intro m Ls hn hp hw
    have hnil : Ls.flatten = [] := List.length_eq_zero_iff.1 (by omega)
    obtain ⟨m', e1, h⟩ := C13.next_spec mc f hp hw
    rcases h with ⟨_, h⟩ | ⟨e, _, _, h, _⟩
    · have hp' := next_end mc f hp hw e1 h
      obtain ⟨m2, e2, h2⟩ := C13.next_spec mc f hp' hw
      refine ⟨m', [], e1, ⟨List.Pairwise.nil, by simp [hnil]⟩, ?_, h, m2, e2, ?_⟩
      · unfold Merge.has at h; unfold Merge.at'
        cases hc : m'.current with
        | none => rfl
        | some _ => rw [hc] at h; cases h
      · rcases h2 with ⟨_, h2⟩ | ⟨e, _, _, h2, _⟩
        · exact h2
        · rw [hnil] at h2; simp at h2
    · rw [hnil] at h; simp at h
  | succ n ih =>
    intro m Ls hn hp hw
    obtain ⟨m', e1, h⟩ := C13.next_spec mc f hp hw
    rcases h with ⟨hnil, h⟩ | ⟨e, hh, hat, hfind, hle, hp'⟩
    · exact ih m Ls (by rw [hnil]; simp) hp hw
    · have hmem := List.mem_of_find?_eq_some hfind
      have hlen : (Ls.map (List.filter fun a => a.pair != e.pair)).flatten.length < Ls.flatten.length := by
        rw [← List.filter_flatten]
        have : Ls.flatten.filter (fun a => a.pair != e.pair) ≠ Ls.flatten := fun h => by
          rw [List.filter_eq_self] at h
          simpa using h e hmem
        have h1 := List.length_filter_le (fun a => a.pair != e.pair) Ls.flatten
        have h2 : (Ls.flatten.filter (fun a => a.pair != e.pair)).length ≠ Ls.flatten.length := fun h =>
          this (List.length_filter_eq_length_iff.1 h |> List.filter_eq_self.2)
        omega
      obtain ⟨m2, M, e2, hM, hs⟩ := ih m' _ (by omega) hp' (by
        intro L hL
        obtain ⟨L0, hL0, rfl⟩ := List.mem_map.1 hL
        exact ⟨List.Pairwise.filter _ (hw L0 hL0).1, fun x hx => (hw L0 hL0).2 x (List.mem_filter.1 hx).1⟩)
      exact ⟨m', e :: M, e1, C13.merged_cons hfind hle hM, hh, hat, m2, e2, hs⟩

/-! ### Opening a partition -/

/-- What the file of a partition yields from the key on. -/
def FileScans (cs : Codecs) (mc : MemCmp) (f : Option PartFile) (key : Option Event) (F : List Event) : Prop :=
  match f with
  | none => F = []
  | some p => ∃ it b, PartIterator.open_ cs mc p key = .ok (it, b) ∧
      Yields PartIterator.at_ (PartIterator.next cs mc) it F

theorem addMem_ok {cs : Codecs} {mc : MemCmp} {m : Memtable} {key : Option Event} {A : List Event}
    (h : Memtable.scan mc m key = .ok A) {mi : Merge Src} {Ls : List (List Event)}
    (hp : C13.Pending (fns cs mc) mi.list Ls) :
    ∃ mi' Ls', addMem mc m key mi = .ok mi' ∧ C13.Pending (fns cs mc) mi'.list Ls' ∧
      Ls'.flatten = Ls.flatten ++ A ∧ ∀ L ∈ Ls', L ∈ Ls ∨ L = A := by
  unfold addMem
  unfold Memtable.scan at h
  rw [Res.bind_eq_ok] at h
  obtain ⟨⟨it, b⟩, h1, h2⟩ := h
  by_cases hc : m.count > 0
  · rw [if_pos hc, h1]
    refine ⟨_, Ls ++ [A], rfl, ?_, by simp, by simp⟩
    exact C13.All2.append hp ⟨by simpa using mem_yields cs mc m _ it A h2, trivial⟩
  · rw [if_neg hc]
    have h0 : m.count = 0 := by omega
    unfold Memtable.iterOpen at h1
    rw [if_pos h0] at h1
    cases h1
    rw [h0] at h2
    cases h2
    exact ⟨_, Ls, rfl, hp, by simp, fun L hL => .inl hL⟩

theorem addFile_ok {cs : Codecs} {mc : MemCmp} {f : Option PartFile} {key : Option Event} {F : List Event}
    (h : FileScans cs mc f key F) {mi : Merge Src} {Ls : List (List Event)}
    (hp : C13.Pending (fns cs mc) mi.list Ls) :
    ∃ mi' Ls', addFile cs mc f key mi = .ok mi' ∧ C13.Pending (fns cs mc) mi'.list Ls' ∧
      Ls'.flatten = Ls.flatten ++ F ∧ ∀ L ∈ Ls', L ∈ Ls ∨ L = F := by
  unfold addFile
  cases f with
  | none =>
    cases h
    exact ⟨_, Ls, rfl, hp, by simp, fun L hL => .inl hL⟩
  | some p =>
    obtain ⟨it, b, h1, h2⟩ := h
    dsimp only
    rw [h1]
    refine ⟨_, Ls ++ [F], rfl, ?_, by simp, by simp⟩
    exact C13.All2.append hp ⟨by simpa using file_yields cs mc h2, trivial⟩

theorem merged_flatten {Ls Ls' : List (List Event)} (h : Ls.flatten = Ls'.flatten) {M : List Event}
    (hm : C13.Merged Ls M) : C13.Merged Ls' M := by
  unfold C13.Merged at hm ⊢
  rw [← h]; exact hm

theorem partOpen_ok {cs : Codecs} {mc : MemCmp} {p : CPart} {key : Option Event} {A B F : List Event} {base : Nat}
    (h1 : Memtable.scan mc p.act key = .ok A) (h2 : Memtable.scan mc p.prev key = .ok B)
    (h3 : FileScans cs mc p.file key F)
    (hw : ∀ L, L = A ∨ L = B ∨ L = F → Ascending L ∧ ∀ e ∈ L, C13.Window base e) :
    ∃ mi M, partOpen cs mc p key = .ok mi ∧ C13.Merged [A, B, F] M ∧ MSteps mc (fns cs mc) mi M := by
  obtain ⟨m1, L1, e1, p1, f1, w1⟩ := addMem_ok (cs := cs) h1 (mi := Merge.init) (Ls := []) trivial
  obtain ⟨m2, L2, e2, p2, f2, w2⟩ := addMem_ok (cs := cs) h2 p1
  obtain ⟨m3, L3, e3, p3, f3, w3⟩ := addFile_ok h3 p2
  obtain ⟨mi, M, e4, hM, hs⟩ := merge_steps mc (fns cs mc) (base := base) _ m3 L3 (Nat.le_refl _) p3 (by
    intro L hL
    apply hw
    rcases w3 L hL with h | h
    · rcases w2 L h with h | h
      · rcases w1 L h with h | h
        · simp at h
        · exact .inl h
      · exact .inr (.inl h)
    · exact .inr (.inr h))
  refine ⟨mi, M, ?_, merged_flatten (by rw [f3, f2, f1]; simp) hM, hs⟩
  unfold partOpen
  rw [e1, Res.bind_ok, e2, Res.bind_ok, e3, Res.bind_ok]
  exact e4

/-! ### The loops -/

/-- What engine_cursor_at shows (NULL on an empty partition) while
engine_cursor_has, moving on with engine_cursor_next. -/
def Raw (cs : Codecs) (mc : MemCmp) (db : Mapping CPart) : ECursor → List (Option Event) → Prop
  | c, [] => has c = false ∧ at_ cs mc c = .ok none
  | c, o :: l => has c = true ∧ at_ cs mc c = .ok o ∧ ∃ c', next cs mc db c = .ok c' ∧ Raw cs mc db c' l

/-- Not an event to return. -/
def dead : Option Event → Bool
  | none => true
  | some e => e.isDelete

/-- The events to return. -/
def alive : List (Option Event) → List Event
  | [] => []
  | none :: l => alive l
  | some e :: l => if e.isDelete then alive l else e :: alive l

theorem skip_ok {cs : Codecs} {mc : MemCmp} {db : Mapping CPart} : ∀ (l : List (Option Event)) (c : ECursor),
    Raw cs mc db c l → ∃ c', Raw cs mc db c' (l.dropWhile dead) ∧
      ∀ fuel, l.length < fuel → skip cs mc db fuel c = .ok (some c')
  | [], c, h => by
    refine ⟨c, h, fun fuel hf => ?_⟩
    cases fuel with
    | zero => omega
    | succ n => unfold skip; rw [if_neg (by rw [h.1]; simp)]
  | o :: l, c, h => by
    obtain ⟨h1, h2, c2, h3, h4⟩ := h
    by_cases hd : dead o = true
    · obtain ⟨c', g1, g2⟩ := skip_ok l c2 h4
      rw [List.dropWhile_cons_of_pos hd]
      refine ⟨c', g1, fun fuel hf => ?_⟩
      cases fuel with
      | zero => omega
      | succ n =>
        unfold skip
        rw [if_pos h1, h2, Res.bind_ok]
        have := g2 n (by simp at hf; omega)
        cases o with
        | none => dsimp only; rw [h3, Res.bind_ok, this]
        | some e =>
          dsimp only
          rw [if_pos (show e.isDelete = true from hd), h3, Res.bind_ok, this]
    · rw [List.dropWhile_cons_of_neg hd]
      refine ⟨c, ⟨h1, h2, c2, h3, h4⟩, fun fuel hf => ?_⟩
      cases fuel with
      | zero => omega
      | succ n =>
        unfold skip
        rw [if_pos h1, h2, Res.bind_ok]
        cases o with
        | none => exact absurd rfl hd
        | some e =>
          dsimp only
          rw [if_neg (show ¬ e.isDelete = true from hd)]

theorem alive_dropWhile (l : List (Option Event)) : alive (l.dropWhile dead) = alive l := by
  induction l with
  | nil => rfl
  | cons o l ih =>
    by_cases hd : dead o = true
    · rw [List.dropWhile_cons_of_pos hd, ih]
      cases o with
      | none => rfl
      | some e =>
        have hd : e.isDelete = true := hd
        simp [alive, hd]
    · rw [List.dropWhile_cons_of_neg hd]

theorem dropWhile_length (l : List (Option Event)) : (l.dropWhile dead).length ≤ l.length :=
  List.Sublist.length_le (List.dropWhile_sublist dead)

theorem readAll_ok {cs : Codecs} {mc : MemCmp} {db : Mapping CPart} (fuel : Nat) :
    ∀ (n : Nat) (l : List (Option Event)) (c : ECursor), Raw cs mc db c (l.dropWhile dead) → l.length < n →
      l.length < fuel → readAll cs mc db fuel n c = .ok (some (alive l))
  | 0, l, c, h, hn, hf => by omega
  | n + 1, l, c, h, hn, hf => by
    rw [← alive_dropWhile]
    have hlen := dropWhile_length l
    cases hl : l.dropWhile dead with
    | nil =>
      rw [hl] at h
      unfold readAll
      rw [h.2]
      rfl
    | cons o l' =>
      rw [hl] at h hlen
      obtain ⟨h1, h2, c2, h3, h4⟩ := h
      have hd : dead o = false := by
        have := List.head?_dropWhile_not dead l
        rw [hl] at this
        simpa using this
      cases o with
      | none => cases hd
      | some e =>
        have hd : e.isDelete = false := hd
        obtain ⟨c3, g1, g2⟩ := skip_ok l' c2 h4
        simp only [List.length_cons] at hlen
        unfold readAll
        rw [h2, Res.bind_ok]
        dsimp only
        rw [if_neg (by rw [hd]; simp)]
        unfold step
        rw [h3, Res.bind_ok, g2 fuel (by omega), Res.bind_ok]
        dsimp only
        rw [readAll_ok fuel n l' c3 g1 (by omega) (by omega), Res.bind_ok]
        simp [alive, hd]

theorem scan_of_raw {cs : Codecs} {mc : MemCmp} {db : Mapping CPart} {key : Option Event} {c : ECursor}
    {l : List (Option Event)} (h : open_ cs mc db key = .ok c) (hr : Raw cs mc db c l) :
    ∀ fuel ≥ l.length + 1, scan cs mc db fuel key = .ok (some (alive l)) := by
  intro fuel hf
  obtain ⟨c', g1, g2⟩ := skip_ok l c hr
  unfold scan cursor
  rw [h, Res.bind_ok, g2 fuel (by omega), Res.bind_ok]
  exact readAll_ok fuel fuel l c' g1 (by omega) (by omega)

/-! ### All partitions -/

/-- What a partition with the merged contents `M` shows. -/
def shown (M : List Event) : List (Option Event) := if M = [] then [none] else M.map some

theorem alive_append (a b : List (Option Event)) : alive (a ++ b) = alive a ++ alive b := by
  induction a with
  | nil => rfl
  | cons o a ih =>
    cases o with
    | none => exact ih
    | some e =>
      simp only [List.cons_append, alive, ih]
      split <;> rfl

theorem alive_map (M : List Event) : alive (M.map some) = M.filter fun e => !e.isDelete := by
  induction M with
  | nil => rfl
  | cons e M ih =>
    by_cases h : e.isDelete = true
    · simp [alive, h, ih]
    · simp [alive, h, ih]

theorem alive_shown (M : List Event) : alive (shown M) = M.filter fun e => !e.isDelete := by
  unfold shown
  by_cases h : M = []
  · subst h; rfl
  · rw [if_neg h]; exact alive_map M

/-- Reading on from an open partition. -/
theorem raw_part {cs : Codecs} {mc : MemCmp} {db : Mapping CPart} {s : Slice CPart} {c' : ECursor}
    {l : List (Option Event)} (hn : openPart cs mc db (wrapU64 (s.max + 1 : Nat)) none = .ok c')
    (hr : Raw cs mc db c' l) : ∀ (M : List Event) (mi : Merge Src), M ≠ [] → MSteps mc (fns cs mc) mi M →
      Raw cs mc db ⟨some s, mi⟩ (M.map some ++ l)
  | [], _, h, _ => absurd rfl h
  | [e], mi, _, hs => by
    obtain ⟨_, h2, m', h3, h4⟩ := hs
    refine ⟨rfl, h2, c', ?_, hr⟩
    unfold next
    dsimp only
    rw [h3, Res.bind_ok, if_neg (by rw [h4.has_nil]; simp)]
    exact hn
  | e :: e' :: M, mi, _, hs => by
    obtain ⟨_, h2, m', h3, h4⟩ := hs
    refine ⟨rfl, h2, ⟨some s, m'⟩, ?_, raw_part hn hr (e' :: M) m' (by simp) h4⟩
    unfold next
    dsimp only
    rw [h3, Res.bind_ok, if_pos h4.1]

theorem next_empty {cs : Codecs} {mc : MemCmp} {db : Mapping CPart} {s : Slice CPart} {mi : Merge Src}
    (hs : MSteps mc (fns cs mc) mi []) :
    next cs mc db ⟨some s, mi⟩ = openPart cs mc db (wrapU64 (s.max + 1 : Nat)) none := by
  obtain ⟨_, _, m', h3, h4⟩ := hs
  unfold next
  dsimp only
  rw [h3, Res.bind_ok, if_neg (by rw [h4]; simp)]

theorem raw_shown {cs : Codecs} {mc : MemCmp} {db : Mapping CPart} {s : Slice CPart} {c' : ECursor}
    {l : List (Option Event)} (hn : openPart cs mc db (wrapU64 (s.max + 1 : Nat)) none = .ok c')
    (hr : Raw cs mc db c' l) {M : List Event} {mi : Merge Src} (hs : MSteps mc (fns cs mc) mi M) :
    Raw cs mc db ⟨some s, mi⟩ (shown M ++ l) := by
  unfold shown
  by_cases h : M = []
  · subst h
    exact ⟨rfl, hs.1, c', (next_empty hs).trans hn, hr⟩
  · rw [if_neg h]
    exact raw_part hn hr M mi h hs

/-- The first of the slices that reach `id`. -/
theorem gte_split {L lo hi : List (Slice CPart)} {id : Nat} {r : Option (Slice CPart)} (hs : Mapping.Sorted L)
    (hL : L = lo ++ hi) (h1 : ∀ u ∈ lo, u.max < id) (h2 : ∀ u ∈ hi, id ≤ u.max) (h : IsGte L id r) : r = hi.head? := by
  subst hL
  cases hi with
  | nil =>
    cases r with
    | none => rfl
    | some s =>
      obtain ⟨g1, g2, _⟩ := h
      have := h1 s (by simpa using g1)
      omega
  | cons u hi =>
    have hp := hs.parts
    cases r with
    | none =>
      have := h u (by simp)
      have := h2 u (by simp)
      omega
    | some s =>
      obtain ⟨g1, g2, g3⟩ := h
      have g3 := g3 u (by simp) (h2 u (by simp))
      simp only [List.head?_cons]
      rcases List.mem_append.1 g1 with g | g
      · have := h1 s g; omega
      · rcases List.mem_cons.1 g with g | g
        · rw [g]
        · have := hp.2.1 s g; omega

/-- Opening and reading all partitions from `id` on. -/
theorem raw_from {cs : Codecs} {mc : MemCmp} {db : Mapping CPart} {L : List (Slice CPart)} (hdb : Mapping.Inv db L)
    (hmax : ∀ s ∈ L, s.max + 1 < 9223372036854775808) (hnear : ∀ s ∈ L, Near L (s.max + 1))
    {G : Slice CPart → List Event → Prop}
    (hopen : ∀ s ∈ L, ∃ mi M, partOpen cs mc s.val none = .ok mi ∧ G s M ∧ MSteps mc (fns cs mc) mi M) :
    ∀ (hi lo : List (Slice CPart)) (id : Nat), L = lo ++ hi → (∀ u ∈ lo, u.max < id) → (∀ u ∈ hi, id ≤ u.max) →
      id < 9223372036854775808 → Near L id →
      ∃ c Ms, openPart cs mc db id none = .ok c ∧ C13.All2 G hi Ms ∧ Raw cs mc db c (Ms.flatMap shown)
  | [], lo, id, hL, h1, h2, hid, hn => by
    obtain ⟨r, e1, e2, _⟩ := Mapping.gte_spec hdb id hid hn
    have := gte_split hdb.sorted hL h1 h2 e2
    cases r with
    | some x => cases this
    | none =>
      refine ⟨⟨none, Merge.init⟩, [], ?_, trivial, rfl, rfl⟩
      unfold openPart
      rw [e1]
      rfl
  | s :: hi, lo, id, hL, h1, h2, hid, hn => by
    obtain ⟨r, e1, e2, _⟩ := Mapping.gte_spec hdb id hid hn
    have := gte_split hdb.sorted hL h1 h2 e2
    cases r with
    | none => cases this
    | some x =>
      have hx : x.v = s := by simpa using this
      have hsL : s ∈ L := by rw [hL]; simp
      obtain ⟨mi, M, g1, g2, g3⟩ := hopen s hsL
      have hp := (hL ▸ hdb.sorted).parts
      obtain ⟨c, Ms, k1, k2, k3⟩ := raw_from hdb hmax hnear hopen hi (lo ++ [s]) (s.max + 1) (by rw [hL]; simp)
        (by
          intro u hu
          rcases List.mem_append.1 hu with hu | hu
          · have := hp.1 u hu; omega
          · simp only [List.mem_singleton] at hu; subst hu; omega)
        (by intro u hu; have := hp.2.1 u hu; omega) (hmax s hsL) (hnear s hsL)
      have hw : wrapU64 ((s.max + 1 : Nat) : Int) = s.max + 1 := by
        have := hmax s hsL
        unfold wrapU64; omega
      refine ⟨⟨some s, mi⟩, M :: Ms, ?_, ⟨g2, k2⟩, ?_⟩
      · unfold openPart
        rw [e1, Res.bind_ok]
        dsimp only
        rw [hx, g1]
        rfl
      · rw [List.flatMap_cons]
        exact raw_shown (by rw [hw]; exact k1) k3 g3

end Verif.Cursor
