import Verif.Proofs.C82Act

/-! Lemmas for C82: what stays as it is whatever the reply. -/
namespace Verif.C82
open Parse Store

/-- What every command leaves: sound storages and partitions, no new ones; and all
events, unless it is DROP. -/
structure Kept (c : Partition) (s s' : Store) : Prop where
  homes : s'.homes = s.homes
  good : Good s'
  bounds : (s'.parts.map fun p => (p.min, p.max)).Sublist (s.parts.map fun p => (p.min, p.max))
  holds : ¬ Drop c → s'.parts.map holds = s.parts.map holds

theorem Kept.refl {c : Partition} {s : Store} (h : Good s) : Kept c s s := ⟨rfl, h, .refl _, fun _ => rfl⟩

theorem Kept.trans {c : Partition} {s s' s'' : Store} (h : Kept c s s') (h' : Kept c s' s'') : Kept c s s'' :=
  ⟨h'.homes.trans h.homes, h'.good, h'.bounds.trans h.bounds, fun n => (h'.holds n).trans (h.holds n)⟩

theorem Good.fit {s : Store} (h : Good s) {p : Piece} (hp : p ∈ s.parts) : Fit s.homes p := ⟨h.home p hp, h.file p hp⟩

theorem Good.at {H A p B} (h : Good ⟨H, A ++ p :: B⟩) : At A p B := by
  have ho := h.order
  simp only [List.pairwise_append, List.pairwise_cons] at ho
  exact ⟨fun a ha => ⟨(h.sound a (by simp [ha])).1, ho.2.2 a ha p (by simp)⟩, (h.sound p (by simp)).1, ho.2.1.1⟩

theorem Good.put {H A p B} (h : Good ⟨H, A ++ p :: B⟩) {q : Piece} (h1 : q.min = p.min) (h2 : q.max = p.max)
    (hq : Fit H q) : Good ⟨H, A ++ q :: B⟩ := by
  have ho := h.order
  simp only [List.pairwise_append, List.pairwise_cons] at ho
  refine ⟨h.homes, ?_, ?_, ?_, ?_⟩
  · simp only [List.pairwise_append, List.pairwise_cons, h2]
    refine ⟨ho.1, ho.2.1, fun a ha b hb => ?_⟩
    rcases List.mem_cons.1 hb with rfl | hb
    · rw [h1]; exact ho.2.2 a ha p (by simp)
    · exact ho.2.2 a ha b (by simp [hb])
  all_goals
    intro x hx
    simp only [List.mem_append, List.mem_cons] at hx
  · rcases hx with hx | rfl | hx
    · exact h.sound x (by simp [hx])
    · rw [h1, h2]; exact h.sound p (by simp)
    · exact h.sound x (by simp [hx])
  · rcases hx with hx | rfl | hx
    · exact h.home x (by simp [hx])
    · exact hq.home
    · exact h.home x (by simp [hx])
  · rcases hx with hx | rfl | hx
    · exact h.file x (by simp [hx])
    · exact hq.file
    · exact h.file x (by simp [hx])

theorem Good.sublist {H L L'} (h : Good ⟨H, L⟩) (hs : L'.Sublist L) : Good ⟨H, L'⟩ :=
  ⟨h.homes, h.order.sublist hs, fun p hp => h.sound p (hs.subset hp), fun p hp => h.home p (hs.subset hp),
    fun p hp => h.file p (hs.subset hp)⟩

theorem into_fit {H : List Home} {h : Home} (hh : h ∈ H) (p : Piece) : Fit H (Piece.into p h) := by
  refine ⟨⟨h, hh, rfl, fun e => e⟩, ?_⟩
  simp only [Piece.into]
  intro e1 e2
  rw [e2] at e1
  simp at e1

/-- What a command leaves of a partition. -/
theorem does_keeps {H : List Home} {c : Partition} {p : Piece} (hp : Fit H p) {r : Option Piece} (hr : Does H c p r) :
    (∀ q, r = some q → q.min = p.min ∧ q.max = p.max ∧ Fit H q) ∧ (¬ Drop c → ∃ q, r = some q ∧ holds q = holds p) := by
  cases hr with
  | drop hd hm => exact ⟨nofun, fun n => absurd hd n⟩
  | dropCloud hd hm =>
    refine ⟨?_, fun n => absurd hd n⟩
    rintro q ⟨⟩
    obtain ⟨g, hg, gn, gc⟩ := hp.home
    refine ⟨rfl, rfl, ⟨g, hg, gn, nofun⟩, ?_⟩
    intro e _
    simp only at e
    simp [e]
  | dropStorage hd hm =>
    refine ⟨?_, fun n => absurd hd n⟩
    rintro q ⟨⟩
    obtain ⟨g, hg, gn, gc⟩ := hp.home
    refine ⟨rfl, rfl, ⟨g, hg, gn, gc⟩, ?_⟩
    intro _ e
    simp only at e
    simp [e]
  | @download h hd hh hn hc =>
    refine ⟨?_, fun _ => ⟨_, rfl, rfl⟩⟩
    rintro q ⟨⟩
    refine ⟨rfl, rfl, hp.home, ?_⟩
    intro e1 e2
    simp only [Bool.or_eq_false_iff] at e1
    exact hp.file e1.1 e2
  | @upload h hd hh hn hc hx =>
    refine ⟨?_, fun _ => ⟨_, rfl, rfl⟩⟩
    rintro q ⟨⟩
    exact ⟨rfl, rfl, ⟨h, hh, hn, fun _ => hc⟩, nofun⟩
  | @uploadNot h hd hh hn hc hx =>
    refine ⟨?_, fun _ => ⟨_, rfl, rfl⟩⟩
    rintro q ⟨⟩
    exact ⟨rfl, rfl, hp⟩
  | @refresh h hd hh hn =>
    refine ⟨?_, fun _ => ⟨_, rfl, by simp [holds, Piece.into]⟩⟩
    rintro q ⟨⟩
    exact ⟨rfl, rfl, into_fit hh _⟩
  | @move h hd hh hn hne =>
    refine ⟨?_, fun _ => ⟨_, rfl, by simp [holds, Piece.into]⟩⟩
    rintro q ⟨⟩
    exact ⟨rfl, rfl, into_fit hh _⟩
  | @stay h hd hh hn heq =>
    refine ⟨?_, fun _ => ⟨_, rfl, by split <;> rfl⟩⟩
    intro q hq
    cases hq
    split
    · exact ⟨rfl, rfl, into_fit hh _⟩
    · exact ⟨rfl, rfl, hp⟩

theorem kept_put {H A p B} (h : Good ⟨H, A ++ p :: B⟩) {c : Partition} {q : Piece} (h1 : q.min = p.min)
    (h2 : q.max = p.max) (hq : Fit H q) (hh : ¬ Drop c → C82.holds q = C82.holds p) :
    Kept c ⟨H, A ++ p :: B⟩ ⟨H, A ++ q :: B⟩ := by
  refine ⟨rfl, h.put h1 h2 hq, ?_, fun n => ?_⟩
  · simp only [List.map_append, List.map_cons, h1, h2]; exact .refl _
  · simp only [List.map_append, List.map_cons, hh n]

theorem find_absent {s : Store} {id : Nat} (h : s.find id = none) {c : Partition} (ht : c.type ≠ .create) (ie : Bool) :
    (ie = true ∧ ∃ b, act c s id ie = .ok s b) ∨ (ie = false ∧ ∃ m, act c s id ie = .error s m) := by
  have hdf : ∀ x m, s.drop_file id true x m = .ok s false := fun x m => by simp [Store.drop_file, h]
  have hdf' : ∀ x m, s.drop_file id false x m = .error s "drop: partition not found" := fun x m => by
    simp [Store.drop_file, h]
  have href : ∀ st, s.refresh id st true = .ok s false := fun st => by
    simp [Store.refresh, Store.download, h, Reply.andThen, Store.drop, hdf, Store.refresh_run, Store.upload]
  have href' : ∀ st, s.refresh id st false = .error s "download: partition not found" := fun st => by
    simp [Store.refresh, Store.download, h, Reply.andThen]
  cases ie with
  | true =>
    refine .inl ⟨rfl, ?_⟩
    rcases kinds c ht with hk | hk | hk | hk | hk
    · rw [act_drop hk, Store.drop]
      split
      · simp only [Store.drop_loop, hdf, Reply.andThen]; exact ⟨_, rfl⟩
      · rw [hdf]; exact ⟨_, rfl⟩
    · rw [act_move hk, href]; exact ⟨_, rfl⟩
    · rw [act_refresh hk, href]; exact ⟨_, rfl⟩
    · rw [act_download hk]; simp [Store.download, h]
    · rw [act_upload hk]; simp [Store.upload, h]
  | false =>
    refine .inr ⟨rfl, ?_⟩
    rcases kinds c ht with hk | hk | hk | hk | hk
    · rw [act_drop hk, Store.drop]
      split
      · simp only [Store.drop_loop, hdf', Reply.andThen]; exact ⟨_, rfl⟩
      · rw [hdf']; exact ⟨_, rfl⟩
    · rw [act_move hk, href']; exact ⟨_, rfl⟩
    · rw [act_refresh hk, href']; exact ⟨_, rfl⟩
    · rw [act_download hk]; simp [Store.download, h]
    · rw [act_upload hk]; simp [Store.upload, h]

theorem find_split {s : Store} {id : Nat} {p : Piece} (h : s.find id = some p) :
    (p.min ≤ id ∧ id ≤ p.max) ∧ ∃ A B, s.parts = A ++ p :: B := by
  obtain ⟨h1, A, B, h2, h3⟩ := List.find?_eq_some_iff_append.1 h
  exact ⟨by simpa using h1, A, B, h2⟩

/-- An operation returns or is refused, nothing else. -/
theorem act_kept {s : Store} (hs : Good s) {c : Partition} (ht : c.type ≠ .create)
    (hm : Drop c → c.mask = 9 ∨ c.mask = 8 ∨ c.mask = 1) (id : Nat) (ie : Bool) :
    ∃ s', Kept c s s' ∧ ((∃ b, act c s id ie = .ok s' b) ∨ ∃ m, act c s id ie = .error s' m) := by
  cases hf : s.find id with
  | none =>
    refine ⟨s, .refl hs, ?_⟩
    rcases find_absent hf ht ie with ⟨_, h⟩ | ⟨_, h⟩
    · exact .inl h
    · exact .inr h
  | some p =>
    obtain ⟨⟨h1, h2⟩, A, B, hp⟩ := find_split hf
    obtain ⟨H, L⟩ := s
    simp only at hp
    subst hp
    have ha := hs.at
    have fit := hs.fit (p := p) (by simp)
    by_cases hd : ∃ r, Does H c p r
    · obtain ⟨r, hr⟩ := hd
      by_cases he : Move c → ∀ h ∈ H, h.name = c.storage → h.name = p.home → h.cloud = true →
          p.onDisk = true ∨ p.onCloud = true
      · obtain ⟨b, hb⟩ := act_does hs.homes ha fit h1 h2 ie hr he
        obtain ⟨k1, k2⟩ := does_keeps fit hr
        refine ⟨_, ?_, .inl ⟨b, hb⟩⟩
        cases r with
        | none =>
          have hsub : (A ++ (Option.toList none ++ B)).Sublist (A ++ p :: B) := by simp
          refine ⟨rfl, hs.sublist hsub, hsub.map _, fun n => ?_⟩
          obtain ⟨q, hq, _⟩ := k2 n
          cases hq
        | some q =>
          obtain ⟨q1, q2, q3⟩ := k1 q rfl
          exact kept_put hs q1 q2 q3 (fun n => by obtain ⟨q', e, e'⟩ := k2 n; cases e; exact e')
      · have hmv : Move c := Classical.byContradiction fun n => he fun m => absurd m n
        have : ∃ h ∈ H, h.name = c.storage ∧ h.name = p.home ∧ h.cloud = true ∧ p.onDisk = false ∧ p.onCloud = false := by
          refine Classical.byContradiction fun n => he fun _ h hh e1 e2 e3 => Classical.byContradiction fun n' => n ?_
          rw [not_or, Bool.not_eq_true, Bool.not_eq_true] at n'
          exact ⟨h, hh, e1, e2, e3, n'⟩
        obtain ⟨h, hh, e1, e2, e3, e4, e5⟩ := this
        refine ⟨_, .refl hs, .inr ⟨"upload: partition file does not exist locally", ?_⟩⟩
        rw [act_move hmv, ← e1]
        exact stay_refused_at hs.homes ha fit hh e2 h1 h2 ie e3 e4 e5
    · rcases act_refused hs.homes ha fit h1 h2 ie ht hm (fun r hr => hd ⟨r, hr⟩) with ⟨m, h⟩ | ⟨_, _, m, h⟩
      · exact ⟨_, .refl hs, .inr ⟨m, h⟩⟩
      · refine ⟨_, ?_, .inr ⟨m, h⟩⟩
        obtain ⟨g, hg, gn, gc⟩ := fit.home
        refine kept_put hs rfl rfl ⟨⟨g, hg, gn, nofun⟩, ?_⟩ (fun _ => rfl)
        intro e _
        simp only [Bool.or_eq_false_iff] at e
        exact fit.file e.1 e.2

/-- A loop returns, is refused or goes on. -/
theorem range_kept {c : Partition} (ht : c.type ≠ .create)
    (hm : Drop c → c.mask = 9 ∨ c.mask = 8 ∨ c.mask = 1) (max : Nat) : ∀ (n : Nat) (s : Store), Good s → ∀ min,
    Store.range (fun s m => act c s m true) n s min max = .ub "range: endless" ∨
    ∃ s', Kept c s s' ∧ ((∃ b, Store.range (fun s m => act c s m true) n s min max = .ok s' b) ∨
      ∃ m, Store.range (fun s m => act c s m true) n s min max = .error s' m) := by
  intro n
  induction n with
  | zero => exact fun _ _ _ => .inl rfl
  | succ n ih =>
    intro s hs min
    simp only [Store.range]
    cases hf : s.foreach min max with
    | none => exact .inr ⟨s, .refl hs, .inl ⟨_, rfl⟩⟩
    | some x =>
      obtain ⟨m, next⟩ := x
      obtain ⟨s1, k1, ⟨b, hb⟩ | ⟨e, he⟩⟩ := act_kept hs ht hm m true
      · simp only [hb, Reply.andThen]
        rcases ih s1 k1.good next with h | ⟨s2, k2, h⟩
        · exact .inl h
        · exact .inr ⟨s2, k1.trans k2, h⟩
      · simp only [he, Reply.andThen]
        exact .inr ⟨s1, k1, .inr ⟨_, rfl⟩⟩

/-- How many partitions end at `pos` or later. -/
def later (s : Store) (pos : Nat) : Nat := (s.parts.filter fun p => decide (pos ≤ p.max)).length

theorem later_kept {c : Partition} {s s' : Store} (h : Kept c s s') (pos : Nat) : later s' pos ≤ later s pos := by
  have key : ∀ s : Store, later s pos = ((s.parts.map fun p => (p.min, p.max)).filter fun x => decide (pos ≤ x.2)).length := by
    intro s
    rw [List.filter_map, List.length_map]
    rfl
  rw [key, key]
  exact (h.bounds.filter _).length_le

theorem range_ends {c : Partition} (ht : c.type ≠ .create)
    (hm : Drop c → c.mask = 9 ∨ c.mask = 8 ∨ c.mask = 1) (max : Nat) : ∀ (n : Nat) (s : Store), Good s →
    (∀ p ∈ s.parts, p.max < 18446744073709551615) → ∀ min, later s min < n →
    Store.range (fun s m => act c s m true) n s min max ≠ .ub "range: endless" := by
  intro n
  induction n with
  | zero => intro _ _ _ _ h; omega
  | succ n ih =>
    intro s hs hlast min hl
    simp only [Store.range]
    cases hg : s.gte min with
    | none => simp [Store.foreach, hg]
    | some p =>
      obtain ⟨hp1, A, B, hp2, hp3⟩ := List.find?_eq_some_iff_append.1 hg
      by_cases hin : min ≤ p.min ∧ p.max ≤ max
      · have hpm : p ∈ s.parts := by rw [hp2]; simp
        have hw : wrapU64 ((p.max + 1 : Nat) : Int) = p.max + 1 := wrapU64_id (by have := hlast p hpm; omega)
        simp only [Store.foreach, hg, if_pos hin, hw]
        obtain ⟨s1, k1, ⟨b, hb⟩ | ⟨e, he⟩⟩ := act_kept hs ht hm p.min true
        · simp only [hb, Reply.andThen]
          refine ih s1 k1.good ?_ _ ?_
          · intro q hq
            have : (q.min, q.max) ∈ s.parts.map fun p => (p.min, p.max) := k1.bounds.subset (List.mem_map.2 ⟨q, hq, rfl⟩)
            obtain ⟨q', hq', e⟩ := List.mem_map.1 this
            have := hlast q' hq'
            simp only [Prod.mk.injEq] at e
            omega
          · have h1 := later_kept k1 (p.max + 1)
            have h2 : later s (p.max + 1) < later s min := by
              simp only [later, hp2, List.filter_append, List.length_append, List.filter_cons]
              rw [if_neg (by simp), if_pos (by simpa using hp1)]
              have mono : ∀ L : List Piece, (L.filter fun q => decide (p.max + 1 ≤ q.max)).length ≤
                  (L.filter fun q => decide (min ≤ q.max)).length := by
                intro L
                simp only [decide_eq_true_eq] at hp1
                induction L with
                | nil => simp
                | cons q L ihL =>
                  simp only [List.filter_cons]
                  by_cases hq : p.max + 1 ≤ q.max
                  · rw [if_pos (by simpa using hq), if_pos (by simp; omega)]
                    simp only [List.length_cons]; omega
                  · rw [if_neg (by simpa using hq)]
                    split
                    · simp only [List.length_cons]; omega
                    · exact ihL
              have := mono A
              have := mono B
              simp only [List.length_cons]
              omega
            omega
        · simp only [he, Reply.andThen]
          nofun
      · simp [Store.foreach, hg, hin]

end Verif.C82
