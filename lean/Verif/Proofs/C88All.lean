import Verif.Proofs.C88Run

/-! Lemmas for C88: opening the partitions one after the other. -/
namespace Verif.C88
open Spec Cursor Io Sweep Memtable Rb

variable {cs : Codecs} {mc : MemCmp} {change : Event → Option Event}

/-- A cursor opened on a table stands at its first event. -/
theorem open_at {base : Nat} {m : Memtable} {L : List Event} (h : Memtable.Inv base m L) (hL : L ≠ []) :
    m.count > 0 ∧ ∃ it b, iterOpen mc m none = .ok (it, b) ∧ C30.At (inorder m.tree) it 0 := by
  have hpage : ∀ p ∈ inorder m.tree, p.events ≠ [] := fun p hp => (h.page p hp).1
  have h0 : m.count ≠ 0 := by
    rw [h.cnt]
    intro hn
    exact hL (List.length_eq_zero_iff.1 hn)
  have hp0 : m.countPages ≠ 0 := by
    intro hn
    have : inorder m.tree = [] := List.length_eq_zero_iff.1 (by rw [← h.cntp, hn])
    apply hL; rw [← h.list, this]; rfl
  refine ⟨by omega, ?_⟩
  cases hmn : Rb.min m.tree with
  | none =>
    have := min_none hmn
    rw [h.cntp, this] at hp0; simp at hp0
  | some x =>
    obtain ⟨h1, h2⟩ := min_some hmn
    have hin : inorder m.tree = x.lo ++ x.v :: x.hi := by rw [← h1, x.inorder_eq]
    obtain ⟨f, fs, hf⟩ := List.exists_cons_of_ne_nil (hpage x.v (by rw [hin]; simp))
    have hx0 : x.v.events[0]? = some f := by rw [hf]; rfl
    refine ⟨⟨some f, some x.v.pid, 0⟩, false, ?_, x.lo, x.v, x.hi, f, hin, rfl, hx0, by rw [h2]; rfl⟩
    simp only [iterOpen, h0, if_false, seek, hp0, hmn, Res.bind_ok, hx0]

theorem addMem_more {m : Memtable} {A : List Event} (h : Memtable.scan mc m none = .ok A) {mi : Merge Src}
    {Ls : List (List Event)} (hp : C13.Pending (fns cs mc) mi.list Ls) :
    ∃ mi' X l, addMem mc m none mi = .ok mi' ∧ C13.Pending (fns cs mc) mi'.list (Ls ++ X) ∧ X.flatten = A ∧
      (∀ L ∈ X, L = A) ∧ mi'.list = mi.list ++ l := by
  unfold addMem
  unfold Memtable.scan at h
  rw [Res.bind_eq_ok] at h
  obtain ⟨⟨it, b⟩, h1, h2⟩ := h
  by_cases hc : m.count > 0
  · rw [if_pos hc, h1]
    refine ⟨_, [A], _, rfl, ?_, by simp, by simp, rfl⟩
    exact C13.All2.append hp ⟨by simpa using mem_yields cs mc m _ it A h2, trivial⟩
  · rw [if_neg hc]
    have h0 : m.count = 0 := by omega
    unfold Memtable.iterOpen at h1
    rw [if_pos h0] at h1
    cases h1
    rw [h0] at h2
    cases h2
    exact ⟨_, [], [], rfl, by simpa using hp, by simp, by simp, by simp⟩

theorem addFile_more {f : Option PartFile} {F : List Event} (h : FileScans cs mc f none F) {mi : Merge Src}
    {Ls : List (List Event)} (hp : C13.Pending (fns cs mc) mi.list Ls) :
    ∃ mi' X l, addFile cs mc f none mi = .ok mi' ∧ C13.Pending (fns cs mc) mi'.list (Ls ++ X) ∧ X.flatten = F ∧
      (∀ L ∈ X, L = F) ∧ mi'.list = mi.list ++ l := by
  unfold addFile
  cases f with
  | none =>
    cases h
    exact ⟨_, [], [], rfl, by simpa using hp, by simp, by simp, by simp⟩
  | some p =>
    obtain ⟨it, b, h1, h2⟩ := h
    dsimp only
    rw [h1]
    refine ⟨_, [F], _, rfl, ?_, by simp, by simp, rfl⟩
    exact C13.All2.append hp ⟨by simpa using file_yields cs mc h2, trivial⟩

/-- Opening a partition: the cursor has everything to show. -/
theorem open_ready {sp ss : Nat} (h1 : 0 < ss) (h2 : ss < sp) {c : Content} {p : CPart} (h : Held cs mc sp ss c p) :
    ∃ base m0 R Rs, partOpen cs mc p none = Merge.next mc (fns cs mc) m0 ∧
      Ready cs mc sp ss base ⟨p, decide (p.act.count > 0), m0⟩ c.act R Rs ∧
      (R :: Rs).flatten = C07.table c.act ++ C07.table c.prev ++ c.stored ∧ R = C07.table c.act := by
  obtain ⟨base, hw⟩ := h.within
  have r1 := table_reach h1 h2 h.built.act (fun e he => hw e (by simp [Content.all, he])) h.act
  have r2 := table_reach h1 h2 h.built.prev (fun e he => hw e (by simp [Content.all, he])) h.prev
  have hf : FileScans cs mc p.file none c.stored := by
    have hbf := h.built.file
    have hst := h.sorted
    have hwf := h.wf
    unfold FileScans Content.stored at *
    cases hcf : c.file with
    | none =>
      rw [hcf] at hbf
      cases hsf : p.file with
      | none => rfl
      | some f => rw [hsf] at hbf; exact hbf.elim
    | some ms =>
      rw [hcf] at hbf hst
      cases hsf : p.file with
      | none => rw [hsf] at hbf; exact hbf.elim
      | some f =>
        rw [hsf] at hbf
        obtain ⟨rs, k1, k2, _⟩ := file_rep hbf (fun m hm => hwf m.event (by
          simp only [Content.all, Content.stored, hcf, List.mem_append]
          exact .inr (List.mem_map.2 ⟨m, hm, rfl⟩))) hst
        obtain ⟨it, k3, k4⟩ := scan_ok (mc := mc) k1
        exact ⟨it, false, k3, by dsimp only; rw [← k2]; exact k4⟩
  have hact : ∀ e ∈ C07.table c.act, e ∈ c.all := fun e he => by simp [Content.all, Cursor.mem_table he]
  have hprev : ∀ e ∈ C07.table c.prev, e ∈ c.all := fun e he => by simp [Content.all, Cursor.mem_table he]
  have hsto : ∀ e ∈ c.stored, e ∈ c.all := fun e he => by simp [Content.all, he]
  have hwin : ∀ e ∈ c.all, C13.Window 0 e := fun e he => by
    have := h.below e he
    unfold C13.Window; omega
  have hall : ∀ L, L = C07.table c.act ∨ L = C07.table c.prev ∨ L = c.stored →
      Ascending L ∧ (∀ e ∈ L, C13.Window 0 e) ∧ ∀ e ∈ L, Within base e := by
    rintro L (rfl | rfl | rfl)
    · exact ⟨C07.table_ascending _, fun e he => hwin e (hact e he), fun e he => hw e (hact e he)⟩
    · exact ⟨C07.table_ascending _, fun e he => hwin e (hprev e he), fun e he => hw e (hprev e he)⟩
    · exact ⟨h.sorted, fun e he => hwin e (hsto e he), fun e he => hw e (hsto e he)⟩
  by_cases hnil : C07.table c.act = []
  · have hcnt : ¬ p.act.count > 0 := by rw [r1.inv.cnt, hnil]; simp
    have e1 : addMem mc p.act none Merge.init = .ok Merge.init := by unfold addMem; rw [if_neg hcnt]
    obtain ⟨m2, X2, l2, e2, p2, f2, w2, _⟩ := addMem_more (cs := cs) (Memtable.scan_all mc r2.inv) (mi := Merge.init) (Ls := []) trivial
    obtain ⟨m3, X3, l3, e3, p3, f3, w3, _⟩ := addFile_more hf p2
    refine ⟨base, m3, [], X2 ++ X3, ?_, ?_, ?_, hnil.symm⟩
    · unfold partOpen
      rw [e1, Res.bind_ok, e2, Res.bind_ok, e3, Res.bind_ok]
      rfl
    · have hin : ∀ L ∈ [] :: (X2 ++ X3), L = [] ∨ L = C07.table c.prev ∨ L = c.stored := by
        intro L hL
        rcases List.mem_cons.1 hL with g | g
        · exact .inl g
        · rcases List.mem_append.1 g with g | g
          · exact .inr (.inl (w2 L g))
          · exact .inr (.inr (w3 L g))
      have hatt : decide (p.act.count > 0) = false := decide_eq_false hcnt
      refine ⟨r1, h.built.act, h.act, fun e he => hw e (by simp [Content.all, he]), ?_, fun _ => rfl, fun hc => ?_, fun hc => ?_,
        fun L hL => ?_, fun e he => ?_, fun hc => ?_⟩
      · dsimp only; rw [hatt]; simpa using p3
      · dsimp only at hc; rw [hatt] at hc; cases hc
      · dsimp only at hc; rw [hatt] at hc; cases hc
      · rcases hin L hL with g | g
        · subst g; exact ⟨List.Pairwise.nil, by simp⟩
        · have := hall L (.inr g); exact ⟨this.1, this.2.1⟩
      · obtain ⟨L, hL, he⟩ := List.mem_flatten.1 he
        rcases hin L hL with g | g
        · subst g; simp at he
        · exact (hall L (.inr g)).2.2 e he
      · dsimp only at hc; rw [hatt] at hc; cases hc
    · simp [hnil, f2, f3]
  · obtain ⟨hcnt, it, b, ho, hat⟩ := open_at (mc := mc) r1.inv hnil
    have e1 : addMem mc p.act none Merge.init = .ok ⟨[⟨.mem p.act it, false⟩], none⟩ := by
      unfold addMem
      rw [if_pos hcnt, ho]
      rfl
    have hon : On p.act (C07.table c.act) it false (C07.table c.act) := .inr ⟨0, hat, rfl⟩
    have hp1 : C13.Pending (fns cs mc) (⟨[⟨.mem p.act it, false⟩], none⟩ : Merge Src).list [C07.table c.act] :=
      ⟨on_pending cs mc r1.inv hon, trivial⟩
    obtain ⟨m2, X2, l2, e2, p2, f2, w2, q2⟩ := addMem_more (cs := cs) (Memtable.scan_all mc r2.inv) hp1
    obtain ⟨m3, X3, l3, e3, p3, f3, w3, q3⟩ := addFile_more hf p2
    refine ⟨base, m3, C07.table c.act, X2 ++ X3, ?_, ?_, ?_, rfl⟩
    · unfold partOpen
      rw [e1, Res.bind_ok, e2, Res.bind_ok, e3, Res.bind_ok]
      rfl
    · have hin : ∀ L ∈ C07.table c.act :: (X2 ++ X3), L = C07.table c.act ∨ L = C07.table c.prev ∨ L = c.stored := by
        intro L hL
        rcases List.mem_cons.1 hL with g | g
        · exact .inl g
        · rcases List.mem_append.1 g with g | g
          · exact .inr (.inl (w2 L g))
          · exact .inr (.inr (w3 L g))
      have hatt : decide (p.act.count > 0) = true := decide_eq_true hcnt
      refine ⟨r1, h.built.act, h.act, fun e he => hw e (by simp [Content.all, he]), ?_, fun hc => ?_, fun _ => hnil, fun _ => ?_,
        fun L hL => ?_, fun e he => ?_, fun _ x hx => .inl hx⟩
      · dsimp only; rw [hatt]; simpa using p3
      · dsimp only at hc; rw [hatt] at hc; cases hc
      · exact ⟨it, false, l2 ++ l3, by rw [q3, q2]; simp, hon⟩
      · have := hall L (hin L hL); exact ⟨this.1, this.2.1⟩
      · obtain ⟨L, hL, he⟩ := List.mem_flatten.1 he
        exact (hall L (hin L hL)).2.2 e he
    · simp [f2, f3]

theorem in_table {es : List Event} {a : Event} (h : a ∈ es) : ∃ y ∈ C07.table es, y.pair = a.pair := by
  have : ∃ y, C07.lastOf a es = some y := by
    unfold C07.lastOf
    cases hf : es.reverse.find? (fun b => evCmp b a == 0) with
    | some y => exact ⟨y, rfl⟩
    | none =>
      have := List.find?_eq_none.1 hf a (by simpa using h)
      rw [evCmp_refl] at this
      simp at this
  obtain ⟨y, hy⟩ := this
  rw [← C07.lookup_table] at hy
  obtain ⟨k1, k2⟩ := C07.lookup_some_mem hy
  exact ⟨y, k1, evCmp_eq.1 k2⟩

theorem again_table (es : List Event) (x : Event) : again change (C07.table es) x = again change es x := by
  have key : ∀ f : Event → Bool, (∀ a b : Event, a.pair = b.pair → f a = f b) → (C07.table es).any f = es.any f := by
    intro f hf
    rw [Bool.eq_iff_iff, List.any_eq_true, List.any_eq_true]
    constructor
    · rintro ⟨a, ha, hp⟩; exact ⟨a, Cursor.mem_table ha, hp⟩
    · rintro ⟨a, ha, hp⟩
      obtain ⟨y, hy, he⟩ := in_table ha
      exact ⟨y, hy, by rw [hf y a he]; exact hp⟩
  unfold again
  rw [key (fun a => a.pair == x.pair) (fun a b h => by rw [h]),
    key (fun a => decide (evCmp x a < 0)) (fun a b h => by unfold evCmp; rw [h])]

theorem has_at {m : Merge Src} (h : m.has = false) : m.at' (fns cs mc) = .ok none := by
  unfold Merge.has at h
  unfold Merge.at'
  cases hc : m.current with
  | none => rfl
  | some _ => rw [hc] at h; cases h

/-- All partitions. -/
theorem all_sweep {sp ss : Nat} (h1 : 0 < ss) (h2 : ss < sp) (hown : Own change) : ∀ (ct : List Content) (ps : List CPart),
    AllOf (Held cs mc sp ss) ct ps → (∀ c ∈ ct, Room sp change c) →
    ∃ Ms ps', AllOf Lives ct Ms ∧
      AllOf (Built cs mc sp ss)
        (List.zipWith (fun c M => { c with act := c.act ++ writes change c.act M }) ct Ms) ps' ∧
      ∀ past, ∃ st st', openNext cs mc past ps = .ok st ∧ 
        Arr cs mc change st (List.zipWith (fun c M => reads change c.act M) ct Ms).flatten st' ∧ st'.parts = past ++ ps'
  | [], [], _, _ => ⟨[], [], trivial, trivial, fun past => ⟨_, _, rfl, arr_end, by simp [State.parts]⟩⟩
  | c :: ct, p :: ps, ⟨hh, hrest⟩, hl => by
    obtain ⟨Ms, ps', i1, i2, i3⟩ := all_sweep h1 h2 hown ct ps hrest fun c hc => hl c (by simp [hc])
    obtain ⟨base, m0, R, Rs, e1, hr, hfl, hRt⟩ := open_ready h1 h2 hh
    have hw : ∀ L ∈ R :: Rs, Ascending L ∧ ∀ e ∈ L, C13.Window 0 e := hr.asc
    -- the merged list
    have hex : ∃ M, C13.Merged (R :: Rs) M := by
      obtain ⟨_, M, _, hM, _⟩ := merge_steps mc (fns cs mc) (base := 0) _ m0 _ (Nat.le_refl _) hr.pend (by
        intro L hL
        apply hw
        dsimp only at hL
        split at hL
        · exact hL
        · exact List.mem_cons_of_mem _ hL)
      exact ⟨M, merged_flatten hr.flat hM⟩
    obtain ⟨M, hM⟩ := hex
    have hcur := merged_all (c := c) (M := M) (merged_flatten (by rw [hfl]; simp) hM)
    have hlives : Lives c (live M) := by
      refine ⟨List.Pairwise.filter _ hcur.1, fun x => ?_⟩
      unfold live
      rw [List.mem_filter, hcur.2]
      simp [and_comm]
    have hag : ∀ x, again change R x = again change c.act x := by
      intro x
      rw [hRt]
      exact again_table c.act x
    have hrd := reads_congr (M := live M) fun x _ => hag x
    have hwr := writes_congr (M := live M) fun x _ => hag x
    have hfit := hl c (by simp) _ hlives
    rw [← hwr] at hfit
    obtain ⟨ma, psa, _, hrun, _, _⟩ := inner h1 h2 hown i3 [] _ _ _ _ _ M hr (Nat.le_refl _) hM hfit
    refine ⟨live M :: Ms, { p with act := ma } :: ps', ⟨hlives, i1⟩, ⟨⟨⟨psa, by dsimp only; rw [← hwr]; exact hrun⟩, hh.built.prev, hh.built.file⟩, i2⟩, fun past => ?_⟩
    obtain ⟨m1, n1, hc⟩ := ready_next hr
    have hop : openNext cs mc past (p :: ps) = .ok ⟨past, some ⟨p, decide (p.act.count > 0), m1⟩, ps⟩ := by
      unfold openNext
      dsimp only
      rw [e1, n1]
      rfl
    rcases hc with ⟨hnil, hh1, hr1⟩ | ⟨e, hh1, _⟩
    · obtain ⟨mb, psb, st', g1, g2, g3⟩ := inner h1 h2 hown i3 past _ _ _ _ _ M hr1 (Nat.le_refl _) hM hfit
      have hmb : mb = ma := by rw [hrun] at g1; cases g1; rfl
      subst hmb
      refine ⟨_, st', hop, ?_, g3⟩
      rw [List.zipWith_cons_cons, List.flatten_cons, ← hrd]
      exact arr_dead (x := none) (has_at hh1) rfl g2
    · obtain ⟨mb, psb, st', g1, g2, g3⟩ := inner h1 h2 hown i3 past _ _ _ _ _ M hr (Nat.le_refl _) hM hfit
      have hmb : mb = ma := by rw [hrun] at g1; cases g1; rfl
      subst hmb
      refine ⟨_, st', hop, ?_, g3⟩
      rw [List.zipWith_cons_cons, List.flatten_cons, ← hrd]
      refine arr_of_fwd ?_ g2
      unfold Sweep.next
      dsimp only
      rw [n1, Res.bind_ok, if_pos hh1]
  | [], _ :: _, h, _ => h.elim
  | _ :: _, [], h, _ => h.elim

theorem sweep_of_arr {ps : List CPart} {st st' : State} {out : List Event} (h : openNext cs mc [] ps = .ok st)
    (ha : Arr cs mc change st out st') : ∃ n, ∀ fuel ≥ n, sweep cs mc change fuel ps = .ok (some (out, st')) := by
  obtain ⟨N, hN⟩ := ha
  have hc : ∀ fuel (x : Res (Option State)), (x.bind fun
      | none => .ok none
      | some st => loop cs mc change fuel fuel st) = x.bind (cont cs mc change fuel fuel) := by
    intro fuel x
    congr 1
  refine ⟨N, fun fuel hf => ?_⟩
  unfold sweep Sweep.open_
  rw [h, Res.bind_ok]
  obtain ⟨past, cur, todo⟩ := st
  cases cur with
  | none =>
    dsimp only
    rw [Res.bind_ok]
    exact (hc fuel _).trans (hN fuel fuel fuel hf hf hf)
  | some o =>
    dsimp only
    by_cases hh : o.cursor.has = true
    · rw [if_pos hh, Res.bind_ok]
      exact (hc fuel _).trans (hN fuel fuel fuel hf hf hf)
    · rw [if_neg hh]
      have h2 := hN fuel (fuel + 1) fuel hf (by omega) hf
      unfold Sweep.skip at h2
      dsimp only at h2
      have hat : Sweep.at_ cs mc ⟨past, some o, todo⟩ = .ok none := has_at (by simpa using hh)
      rw [hat, Res.bind_ok] at h2
      dsimp only at h2
      cases hn : Sweep.next cs mc ⟨past, some o, todo⟩ with
      | ok s2 =>
        rw [hn, Res.bind_ok] at h2
        rw [Res.bind_ok]
        exact (hc fuel _).trans h2
      | err s => rw [hn] at h2; cases h2
      | abort s => rw [hn] at h2; cases h2
      | ub s => rw [hn] at h2; cases h2

theorem again_quiet {c : Content} (h : Quiet change c) {e : Event} (he : e.isDelete = false) (hc : c.current e = some e) :
    again change c.act e = none := by
  unfold again
  cases hd : change e with
  | none => rfl
  | some d =>
    dsimp only
    by_cases h1 : d.isDelete = true
    · rw [if_pos h1]
    rw [if_neg h1]
    rcases h e d he hc hd with g | ⟨a, g1, g2⟩ | g
    · exact absurd g h1
    · rw [if_pos (List.any_eq_true.2 ⟨a, g1, by simp [g2]⟩)]
    · split
      · rfl
      · rw [if_neg]
        intro hany
        obtain ⟨a, ha, hlt⟩ := List.any_eq_true.1 hany
        have hlt : evCmp e a < 0 := by simpa using hlt
        have := g a ha
        have := evCmp_swap a e
        omega

theorem writes_quiet {c : Content} {M : List Event} (h : Quiet change c) (hM : Lives c M) :
    writes change c.act M = M.filterMap change := by
  have : ∀ M : List Event, (∀ x ∈ M, again change c.act x = none) → writes change c.act M = M.filterMap change := by
    intro M
    induction M with
    | nil => intro _; rfl
    | cons x M ih =>
      intro hm
      rw [writes_cons, hm x (by simp), ih fun y hy => hm y (by simp [hy])]
      cases hx : change x with
      | none => simp [List.filterMap_cons, hx]
      | some d => simp [List.filterMap_cons, hx]
  exact this M fun x hx => again_quiet h ((hM.2 x).1 hx).1 ((hM.2 x).1 hx).2

theorem reads_quiet {c : Content} {M : List Event} (h : Quiet change c) (hM : Lives c M) :
    reads change c.act M = M := by
  have : ∀ M : List Event, (∀ x ∈ M, again change c.act x = none) → reads change c.act M = M := by
    intro M
    induction M with
    | nil => intro _; rfl
    | cons x M ih =>
      intro hm
      rw [reads_cons, hm x (by simp), ih fun y hy => hm y (by simp [hy])]
      rfl
  exact this M fun x hx => again_quiet h ((hM.2 x).1 hx).1 ((hM.2 x).1 hx).2

theorem all_quiet : ∀ (ct : List Content) (Ms : List (List Event)), (∀ c ∈ ct, Quiet change c) → AllOf Lives ct Ms →
    List.zipWith (fun c M => reads change c.act M) ct Ms = Ms ∧
    List.zipWith (fun c M => ({ c with act := c.act ++ writes change c.act M } : Content)) ct Ms =
      List.zipWith (fun c M => Content.changed c change M) ct Ms
  | [], [], _, _ => ⟨rfl, rfl⟩
  | c :: ct, M :: Ms, hq, ⟨h1, h2⟩ => by
    obtain ⟨i1, i2⟩ := all_quiet ct Ms (fun c hc => hq c (by simp [hc])) h2
    have hc := hq c (by simp)
    simp only [List.zipWith_cons_cons, i1, i2, reads_quiet hc h1, writes_quiet hc h1, true_and]
    rfl
  | [], _ :: _, _, h => h.elim
  | _ :: _, [], _, h => h.elim

/-! ### More turns do not matter -/

theorem skip_more (cs : Codecs) (mc : MemCmp) : ∀ (n k : Nat) (st st' : State), Sweep.skip cs mc n st = .ok (some st') →
    Sweep.skip cs mc (n + k) st = .ok (some st')
  | 0, k, st, st', h => by simp [Sweep.skip] at h
  | n + 1, k, st, st', h => by
    rw [Nat.add_right_comm]
    unfold Sweep.skip at h ⊢
    cases hc : st.cur with
    | none => rw [hc] at h; exact h
    | some o =>
      rw [hc] at h
      dsimp only at h ⊢
      rw [Res.bind_eq_ok] at h
      obtain ⟨a, ha, h⟩ := h
      rw [ha, Res.bind_ok]
      cases a with
      | none =>
        dsimp only at h ⊢
        rw [Res.bind_eq_ok] at h
        obtain ⟨s2, h3, h4⟩ := h
        rw [h3, Res.bind_ok]
        exact skip_more cs mc n k s2 st' h4
      | some e =>
        dsimp only at h ⊢
        by_cases hd : e.isDelete = true
        · rw [if_pos hd] at h ⊢
          rw [Res.bind_eq_ok] at h
          obtain ⟨s2, h3, h4⟩ := h
          rw [h3, Res.bind_ok]
          exact skip_more cs mc n k s2 st' h4
        · rw [if_neg hd] at h ⊢; exact h

theorem loop_more (cs : Codecs) (mc : MemCmp) (change : Event → Option Event) (fuel j : Nat) : ∀ (n k : Nat) (st : State) x,
    loop cs mc change fuel n st = .ok (some x) → loop cs mc change (fuel + j) (n + k) st = .ok (some x)
  | 0, k, st, x, h => by simp [loop] at h
  | n + 1, k, st, x, h => by
    rw [Nat.add_right_comm]
    unfold loop at h ⊢
    rw [Res.bind_eq_ok] at h
    obtain ⟨r, hr, h⟩ := h
    rw [hr, Res.bind_ok]
    cases r with
    | none => exact h
    | some e =>
      dsimp only at h ⊢
      rw [Res.bind_eq_ok] at h
      obtain ⟨s1, h3, h⟩ := h
      rw [h3, Res.bind_ok]
      rw [Res.bind_eq_ok] at h
      obtain ⟨s2, h4, h⟩ := h
      cases s2 with
      | none => cases h
      | some s2 =>
        have h5 : Sweep.step cs mc (fuel + j) s1 = .ok (some s2) := by
          unfold Sweep.step at h4 ⊢
          rw [Res.bind_eq_ok] at h4
          obtain ⟨s3, h6, h7⟩ := h4
          rw [h6, Res.bind_ok]
          exact skip_more cs mc fuel j s3 s2 h7
        rw [h5, Res.bind_ok]
        dsimp only at h ⊢
        rw [Res.bind_eq_ok] at h
        obtain ⟨y, h6, h7⟩ := h
        cases y with
        | none => cases h7
        | some y => rw [loop_more cs mc change fuel j n k s2 y h6]; exact h7

theorem sweep_more (cs : Codecs) (mc : MemCmp) (change : Event → Option Event) (fuel j : Nat) (ps : List CPart) (x)
    (h : sweep cs mc change fuel ps = .ok (some x)) : sweep cs mc change (fuel + j) ps = .ok (some x) := by
  unfold sweep at h ⊢
  rw [Res.bind_eq_ok] at h
  obtain ⟨s1, h1, h⟩ := h
  rw [h1, Res.bind_ok]
  rw [Res.bind_eq_ok] at h
  obtain ⟨s2, h2, h⟩ := h
  cases s2 with
  | none => cases h
  | some s2 => rw [skip_more cs mc fuel j s1 s2 h2]; exact loop_more cs mc change fuel j fuel j s2 x h

end Verif.C88
