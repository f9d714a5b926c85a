import Verif.Proofs.C91

/-! The regions read by a cursor over all partitions. -/
namespace Verif.C91
open Spec Io Reads
open Cursor (CPart)

/-- The iterator of the file of `s`, for a cursor opened at `K`. -/
def P (cs : Codecs) (s : Slice CPart) (K : Option Event) (p : PartFile) (f : File) : Prop :=
  ∃ rs a, Good cs p rs ∧ FInv cs p rs s.min K a f ∧ (K = none → a = 0) ∧
    ∀ k, K = some k → ∀ i ir, a ≤ i → i < rs.length → p.index.get p.index_data i = .ok ir → k.id ≤ ir.max

/-- All regions of the file of `u` are in `l`. -/
def ReadAll (u : Slice CPart) (l : List Read) : Prop :=
  ∀ f, u.val.file = some f → ∀ i < f.index.regions, ∃ r ∈ l, r.part = u.min ∧ r.pos = i

theorem P_next {cs : Codecs} {mc : MemCmp} {s : Slice CPart} {K : Option Event} (p : PartFile) (f f' : File)
    (h : P cs s K p f) (hn : File.next cs mc f = .ok f') :
    P cs s K p f' ∧ (f'.log = f.log ∨ ((∃ r, f'.log = f.log ++ [r]) ∧ f'.it.at_ ≠ none)) := by
  obtain ⟨rs, a, h1, h2, h3⟩ := h
  obtain ⟨h4, h5⟩ := next_log h1.rep h2 hn
  exact ⟨⟨rs, a, h1, h4, h3⟩, h5⟩

theorem range_pairwise : ∀ (n a : Nat), (List.range' a n).Pairwise (· < ·) := by
  intro n a
  exact List.pairwise_lt_range'

theorem P_log {cs : Codecs} {s : Slice CPart} {K : Option Event} {p : PartFile} {f : File} (h : P cs s K p f) :
    InOrder f.log ∧ (∀ r ∈ f.log, r.part = s.min) ∧ ∀ r ∈ f.log, ¬ Before K r := by
  obtain ⟨rs, a, h1, h2, h3, h4⟩ := h
  obtain ⟨n, hn, _⟩ := h2.seq
  have hpw : (f.log.map (·.pos)).Pairwise (· < ·) := by rw [hn]; exact range_pairwise n a
  refine ⟨?_, fun r hr => (h2.log r hr).1, ?_⟩
  · have := List.pairwise_map.1 hpw
    refine (List.Pairwise.and_mem.1 this).imp ?_
    rintro x y ⟨hx, hy, hlt⟩
    exact .inr ⟨by rw [(h2.log x hx).1, (h2.log y hy).1], hlt⟩
  · rintro r hr ⟨k, hk, hlt⟩
    obtain ⟨_, g1, g2⟩ := h2.log r hr
    have hm : r.pos ∈ List.range' a n := by rw [← hn]; exact List.mem_map.2 ⟨r, hr, rfl⟩
    rw [List.mem_range'] at hm
    obtain ⟨i, _, hi⟩ := hm
    have := h4 k hk r.pos r.region (by omega) g2 g1
    omega

theorem P_all {cs : Codecs} {s : Slice CPart} {p : PartFile} {f : File} (h : P cs s none p f)
    (hat : f.it.at_ = none) : ∀ i < p.index.regions, ∃ r ∈ f.log, r.part = s.min ∧ r.pos = i := by
  obtain ⟨rs, a, h1, h2, h3, _⟩ := h
  have ha := h3 rfl
  subst ha
  obtain ⟨n, hn, hc⟩ := h2.seq
  have hcur := h2.full rfl hat
  intro i hi
  rw [h1.rep.regions] at hi
  have hle : rs.length ≤ 0 + n := by
    rcases hc with ⟨ir, j, hj, _⟩ | ⟨_, _, hle⟩
    · rw [hj] at hcur; cases hcur
    · exact hle
  have hm : i ∈ f.log.map (·.pos) := by
    rw [hn, List.mem_range']
    exact ⟨i, by omega, by omega⟩
  obtain ⟨r, hr, rfl⟩ := List.mem_map.1 hm
  exact ⟨r, hr, (h2.log r hr).1, rfl⟩

theorem P_ahead {cs : Codecs} {s : Slice CPart} {K : Option Event} {p : PartFile} {f : File} (h : P cs s K p f)
    {e : Event} (he : f.it.at_ = some e) : ∃ x, f.log.getLast? = some x ∧ x.region.min ≤ e.id ∧ e.id ≤ x.region.max := by
  obtain ⟨rs, a, h1, h2, _⟩ := h
  obtain ⟨i, j, hA⟩ := h2.here e he
  obtain ⟨n, hn, hc⟩ := h2.seq
  rcases hc with ⟨ir, i', hi, hn0, hin⟩ | ⟨_, h0, _⟩
  · obtain ⟨_, ⟨ir', hi'⟩, r, rg, e', k1, k2, k3, k4, k5⟩ := hA
    rw [hi] at hi'
    cases hi'
    have hee : e' = e := by
      unfold PartIterator.at_ at he
      rw [k5] at he
      exact Option.some.inj he
    subst hee
    have hne : f.log ≠ [] := by
      intro h0
      rw [h0] at hn
      cases n with
      | zero => exact hn0 rfl
      | succ n => simp [List.range'] at hn
    obtain ⟨x, hx⟩ : ∃ x, f.log.getLast? = some x := ⟨_, List.getLast?_eq_some_getLast hne⟩
    have hlast : (f.log.map (·.pos)).getLast? = some x.pos := by rw [List.getLast?_map, hx]; rfl
    rw [hn] at hlast
    have hpos : x.pos = i := by
      obtain ⟨m, rfl⟩ := Nat.exists_eq_succ_of_ne_zero hn0
      rw [Nat.succ_eq_add_one, List.range'_concat, List.getLast?_append] at hlast
      simp at hlast
      omega
    obtain ⟨_, g1, _⟩ := h2.log x (List.mem_of_getLast? hx)
    rw [hpos] at g1
    have := h1.bounds i x.region r g1 k1 e' (List.mem_of_getElem? k2)
    exact ⟨x, hx, this⟩
  · rw [h0] at he; cases he

/-- What is known of a cursor. -/
structure EInv (cs : Codecs) (L : List (Slice CPart)) (K : Option Event) (c : ECursor) : Prop where
  order : InOrder c.past
  need : ∀ r ∈ c.past, ¬ Before K r
  now : match c.ref with
    | none => c.cursor.list = [] ∧ (K = none → ∀ u ∈ L, ReadAll u c.past)
    | some s => s ∈ L ∧ (∀ r ∈ c.past, r.part < s.min) ∧
        (∃ log, Shape (P cs s K) s.val.file (c.cursor.list.map (·.it)) log) ∧
        (K = none → ∀ u ∈ L, u.max < s.min → ReadAll u c.past)

theorem shape_facts {cs : Codecs} {s : Slice CPart} {K : Option Event} {its : List Src} {log : List Read}
    (h : Shape (P cs s K) s.val.file its log) :
    InOrder log ∧ (∀ r ∈ log, r.part = s.min) ∧ ∀ r ∈ log, ¬ Before K r := by
  obtain ⟨ms, hm, ⟨_, _, h3⟩ | ⟨p, f, _, _, h3, h4⟩⟩ := h.ex
  · subst h3
    exact ⟨List.Pairwise.nil, by simp, by simp⟩
  · subst h3
    exact P_log h4

theorem append_order {l l' : List Read} {m : Nat} (h1 : InOrder l) (h2 : InOrder l') (h3 : ∀ r ∈ l, r.part < m)
    (h4 : ∀ r ∈ l', r.part = m) : InOrder (l ++ l') := by
  refine List.pairwise_append.2 ⟨h1, h2, fun a ha b hb => .inl ?_⟩
  have := h3 a ha
  have := h4 b hb
  omega

theorem inv_order {cs : Codecs} {L : List (Slice CPart)} {K : Option Event} {c : ECursor} (h : EInv cs L K c) :
    InOrder (reads c) ∧ (∀ r ∈ reads c, ¬ Before K r) ∧ NoneAhead c ∧
      (K = none → c.ref = none → ∀ u ∈ L, ReadAll u (reads c)) := by
  have hnow := h.now
  unfold reads
  cases hr : c.ref with
  | none =>
    rw [hr] at hnow
    obtain ⟨h1, h2⟩ := hnow
    have : logOf c.cursor = [] := by unfold logOf; rw [h1]; rfl
    rw [this, List.append_nil]
    refine ⟨h.order, h.need, ?_, fun hk _ => h2 hk⟩
    intro r hr'
    rw [h1] at hr'
    cases hr'
  | some s =>
    rw [hr] at hnow
    obtain ⟨_, h2, ⟨log, h3⟩, _⟩ := hnow
    rw [shape_log h3]
    obtain ⟨g1, g2, g3⟩ := shape_facts h3
    refine ⟨append_order h.order g1 h2 g2, ?_, ?_, fun _ h0 => by cases h0⟩
    · intro r hr'
      rcases List.mem_append.1 hr' with hr' | hr'
      · exact h.need r hr'
      · exact g3 r hr'
    · intro r hr' f hf e he
      obtain ⟨ms, hm, ⟨_, e2, _⟩ | ⟨p, f', _, e2, _, e4⟩⟩ := h3.ex
      · obtain ⟨m, it, hx⟩ := hm r.it (by rw [← e2]; exact List.mem_map.2 ⟨r, hr', rfl⟩)
        rw [hf] at hx; cases hx
      · have hmem : r.it ∈ ms ++ [.file f'] := by rw [← e2]; exact List.mem_map.2 ⟨r, hr', rfl⟩
        rcases List.mem_append.1 hmem with hmem | hmem
        · obtain ⟨m, it, hx⟩ := hm _ hmem
          rw [hf] at hx; cases hx
        · simp only [List.mem_singleton] at hmem
          rw [hf] at hmem
          cases hmem
          exact P_ahead e4 he

/-- What the proof needs of the partitions `L`. -/
structure World (cs : Codecs) (L : List (Slice CPart)) : Prop where
  sorted : ∀ s ∈ L, s.min ≤ s.max
  apart : ∀ s ∈ L, ∀ u ∈ L, s.max < u.max → s.max < u.min
  same : ∀ s ∈ L, ∀ u ∈ L, s.max = u.max → s = u
  files : ∀ s ∈ L, ∀ p, s.val.file = some p → ∃ rs, Good cs p rs ∧
    ∀ i ir, i < rs.length → p.index.get p.index_data i = .ok ir → s.min ≤ ir.max

/-- Opening a partition without a key, after the key. -/
theorem P_open_all {cs : Codecs} {mc : MemCmp} {L : List (Slice CPart)} (hw : World cs L) {s : Slice CPart} (hs : s ∈ L)
    {K : Option Event} (hK : ∀ k, K = some k → k.id ≤ s.min) (p : PartFile) (f : File) (hp : s.val.file = some p)
    (h : File.open_ cs mc s.min p none = .ok f) :
    P cs s K p f ∧ f.log.length ≤ 1 ∧ ((none : Option Event) = none → f.log ≠ [] → f.it.at_ ≠ none) := by
  obtain ⟨rs, g1, g2⟩ := hw.files s hs p hp
  obtain ⟨⟨ii, hii, h1⟩, h2, h3⟩ := open_log g1.rep (K := K) (fun _ => rfl) h
  refine ⟨⟨rs, ii.pos, g1, h1, fun _ => ?_, ?_⟩, h2, h3⟩
  · have : IndexIterator.open_ p.index p.index_data none = .ok ii := hii
    unfold IndexIterator.open_ at this
    by_cases h0 : p.index.regions = 0
    · rw [if_pos h0] at this; cases this; rfl
    · rw [if_neg h0] at this
      obtain ⟨r, _, this⟩ := Res.bind_eq_ok.1 this
      cases this; rfl
  · intro k hk i ir _ hi hg
    have := hK k hk
    have := g2 i ir hi hg
    omega

/-- The lookup of the next partition. -/
def Gte (db : Mapping CPart) (L : List (Slice CPart)) (id : Nat) : Prop :=
  ∀ r, db.gte id = .ok r → IsGte L id (r.map (·.v))

/-- Moving on from partition `s`, of which all was read or that had nothing. -/
theorem openPart_inv {cs : Codecs} {mc : MemCmp} {db : Mapping CPart} {L : List (Slice CPart)} (hw : World cs L)
    {K : Option Event} {s : Slice CPart} (hs : s ∈ L) (hg : Gte db L (s.max + 1)) {past : List Read}
    (ho : InOrder past) (hn : ∀ r ∈ past, ¬ Before K r) (hp : ∀ r ∈ past, r.part ≤ s.min)
    (hk : ∀ k, K = some k → k.id ≤ s.max) (hall : K = none → ∀ u ∈ L, u.max ≤ s.max → ReadAll u past)
    {c : ECursor} (h : openPart cs mc db (s.max + 1) none past = .ok c) :
    EInv cs L K c ∧ AtMost 1 past (reads c) := by
  unfold openPart at h
  obtain ⟨o, h1, h⟩ := Res.bind_eq_ok.1 h
  have hg := hg o h1
  cases o with
  | none =>
    cases h
    refine ⟨⟨ho, hn, rfl, fun hK u hu => hall hK u hu ?_⟩, [], rfl, by simp⟩
    have := hg u hu
    omega
  | some x =>
    obtain ⟨m, h2, h⟩ := Res.bind_eq_ok.1 h
    cases h
    obtain ⟨g1, g2, g3⟩ := hg
    dsimp only at g1 g2 g3
    have hx := hw.apart s hs x.v g1 (by omega)
    have hsm := hw.sorted s hs
    obtain ⟨log, q1, q2, _⟩ := partOpen_log (P_open_all hw g1 (K := K) (fun k hK => by have := hk k hK; omega)) h2
    refine ⟨⟨ho, hn, g1, fun r hr => ?_, ⟨log, q1⟩, fun hK u hu hlt => hall hK u hu ?_⟩, log, ?_, q2⟩
    · have := hp r hr; omega
    · by_cases hle : u.max ≤ s.max
      · exact hle
      · have := g3 u hu (by omega)
        have := hw.sorted u hu
        omega
    · show past ++ logOf m = past ++ log
      rw [shape_log q1]

/-- One step of the cursor. -/
theorem next_inv {cs : Codecs} {mc : MemCmp} {db : Mapping CPart} {L : List (Slice CPart)} (hw : World cs L)
    {K : Option Event} (hmax : ∀ s ∈ L, s.max + 1 < 18446744073709551616) (hg : ∀ s ∈ L, Gte db L (s.max + 1))
    {c c' : ECursor} (hk : ∀ s, c.ref = some s → ∀ k, K = some k → k.id ≤ s.max) (hi : EInv cs L K c)
    (h : next cs mc db c = .ok c') : EInv cs L K c' ∧ AtMost 1 (reads c) (reads c') := by
  unfold next at h
  have hnow := hi.now
  cases hr : c.ref with
  | none =>
    rw [hr] at h
    cases h
    exact ⟨hi, [], by simp, by simp⟩
  | some s =>
    rw [hr] at h hnow
    dsimp only at h
    obtain ⟨h1, h2, ⟨log, h3⟩, h4⟩ := hnow
    obtain ⟨m, hm, h⟩ := Res.bind_eq_ok.1 h
    obtain ⟨log', h5, h6⟩ := merge_log P_next h3 hm
    have hwrap : wrapU64 ((s.max + 1 : Nat) : Int) = s.max + 1 := wrapU64_id (hmax s h1)
    by_cases hh : m.has = true
    · rw [if_pos hh] at h
      cases h
      refine ⟨⟨hi.order, hi.need, ?_⟩, ?_⟩
      · exact ⟨h1, h2, ⟨log', h5⟩, h4⟩
      · rcases h6 with h6 | ⟨⟨r, h6⟩, _⟩
        · refine ⟨[], ?_, by simp⟩
          show c.past ++ logOf m = c.past ++ logOf c.cursor ++ []
          rw [shape_log h3, shape_log h5, h6, List.append_nil]
        · refine ⟨[r], ?_, by simp⟩
          show c.past ++ logOf m = c.past ++ logOf c.cursor ++ [r]
          rw [shape_log h3, shape_log h5, h6, List.append_assoc]
    · rw [if_neg hh, hwrap] at h
      have hll : log' = log := by
        rcases h6 with h6 | ⟨_, h6⟩
        · exact h6
        · exact absurd h6 hh
      subst hll
      obtain ⟨g1, g2, g3⟩ := shape_facts h5
      have hlm : logOf m = log' := shape_log h5
      rw [hlm] at h
      have := openPart_inv hw (K := K) h1 (hg s h1) (append_order hi.order g1 h2 g2) (by
          intro r hr'
          rcases List.mem_append.1 hr' with hr' | hr'
          · exact hi.need r hr'
          · exact g3 r hr') (by
          intro r hr'
          rcases List.mem_append.1 hr' with hr' | hr'
          · have := h2 r hr'; omega
          · have := g2 r hr'; omega) (hk s hr) (by
          intro hK u hu hle
          by_cases hlt : u.max < s.max
          · have hus := hw.apart u hu s h1 hlt
            intro f hf i hif
            obtain ⟨r, hr', g⟩ := h4 hK u hu hus f hf i hif
            exact ⟨r, List.mem_append_left _ hr', g⟩
          · have := hw.same u hu s h1 (by omega)
            subst this
            intro f hf i hif
            obtain ⟨_, _, _, hend⟩ := merge_its hm
            obtain ⟨ms, _, ⟨e1, _, _⟩ | ⟨p, f', e1, e2, e3, e4⟩⟩ := h5.ex
            · rw [e1] at hf; cases hf
            · rw [e1] at hf
              cases hf
              have hat := hend (by simpa using hh) (.file f') (by rw [e2]; simp)
              subst hK
              obtain ⟨r, hr', g⟩ := P_all e4 hat i hif
              exact ⟨r, List.mem_append_right _ (by rw [e3]; exact hr'), g⟩) h
      refine ⟨this.1, ?_⟩
      have hreads : reads c = c.past ++ log' := by unfold reads; rw [shape_log h3]
      rw [hreads]
      exact this.2

theorem next_ref {cs : Codecs} {mc : MemCmp} {db : Mapping CPart} {L : List (Slice CPart)}
    (hmax : ∀ s ∈ L, s.max + 1 < 18446744073709551616) (hg : ∀ s ∈ L, Gte db L (s.max + 1)) {id : Nat} {c c' : ECursor}
    (hL : ∀ s, c.ref = some s → s ∈ L) (hc : ∀ s, c.ref = some s → id ≤ s.max)
    (h : next cs mc db c = .ok c') : ∀ s, c'.ref = some s → id ≤ s.max := by
  unfold next at h
  cases hr : c.ref with
  | none => rw [hr] at h; cases h; exact hc
  | some s =>
    rw [hr] at h
    dsimp only at h
    obtain ⟨m, hm, h⟩ := Res.bind_eq_ok.1 h
    by_cases hh : m.has = true
    · rw [if_pos hh] at h
      cases h
      intro u hu
      exact hc u (hr.trans hu)
    · rw [if_neg hh, wrapU64_id (hmax s (hL s hr))] at h
      unfold openPart at h
      obtain ⟨o, h1, h⟩ := Res.bind_eq_ok.1 h
      have hgo := hg s (hL s hr) o h1
      have := hc s hr
      cases o with
      | none => cases h; intro u hu; cases hu
      | some x =>
        obtain ⟨m, h2, h⟩ := Res.bind_eq_ok.1 h
        cases h
        intro u hu
        cases hu
        have : s.max + 1 ≤ x.v.max := hgo.2.1
        omega

end Verif.C91
