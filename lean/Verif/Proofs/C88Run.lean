import Verif.Proofs.C88

/-! Lemmas for C88: the loop of the application. -/
namespace Verif.C88
open Spec Cursor Io Sweep Memtable Rb

/-- Writing while the cursor is on an event. -/
theorem ready_write {cs : Codecs} {mc : MemCmp} {sp ss base : Nat} (h1 : 0 < ss) (h2 : ss < sp) {o : Open}
    {es R R' : List Event} {Rs' : List (List Event)} {e d : Event} (h : Ready cs mc sp ss base o es R' Rs')
    (hst : o.att = true → ∃ it adv rest, o.cursor.list = ⟨.mem o.part.act it, adv⟩ :: rest ∧
      Stand o.part.act (C07.table es) it adv R R')
    (hR : R' = R.filter fun a => a.pair != e.pair)
    (hfl : ∀ y ∈ (R' :: Rs').flatten, evCmp e y < 0)
    (hle : o.att = true → ∀ x ∈ C07.table es, x ∈ R ∨ evCmp x e < 0) (hge : ∀ x ∈ R, evCmp e x ≤ 0)
    (hd : d.pair = e.pair) (hw : Within base e) (hwin : C13.Window 0 e)
    (hroom : (C07.table (es ++ [d])).length ≤ sp) (past todo : List CPart) :
    ∃ o', write mc ⟨past, some o, todo⟩ d = .ok ⟨past, some o', todo⟩ ∧ o'.part = { o.part with act := o'.part.act } ∧
      (Ready cs mc sp ss base o' (es ++ [d]) R' Rs' ∧ ((∃ x ∈ R, x.pair = e.pair) ∨ R' = []) ∨
       Ready cs mc sp ss base o' (es ++ [d]) (d :: R') Rs' ∧ R' ≠ [] ∧ ∀ x ∈ C07.table es, x.pair ≠ e.pair) := by
  have hid : d.id = e.id := congrArg (·.1) hd
  have hkey : d.key = e.key := congrArg (·.2) hd
  have hwd : Within base d := by unfold Within at *; rw [hid, hkey]; exact hw
  have hwind : C13.Window 0 d := by unfold C13.Window at *; rw [hid]; exact hwin
  have hde : ∀ y : Event, evCmp d y = evCmp e y := fun y => by unfold evCmp; rw [hd]
  have hde' : ∀ y : Event, evCmp y d = evCmp y e := fun y => by unfold evCmp; rw [hd]
  have htame := tame_snoc h.tame hroom
  have hwrote : ∀ x ∈ es ++ [d], Within base x := by
    intro x hx
    rcases List.mem_append.1 hx with hx | hx
    · exact h.wrote x hx
    · simp only [List.mem_singleton] at hx; subst hx; exact hwd
  obtain ⟨m1, ps1, r1, reach1, _⟩ := C07.run_tame mc h1 h2 base (es ++ [d]) hwrote htame
  obtain ⟨ps, r0⟩ := h.run
  have hset : ∃ p, set mc true o.part.act d = .ok (m1, p) := by
    rw [C07.run_snoc, r0, Res.bind_ok] at r1
    dsimp only at r1
    rw [Res.bind_eq_ok] at r1
    obtain ⟨⟨m2, p⟩, g1, g2⟩ := r1
    cases g2
    exact ⟨p, g1⟩
  obtain ⟨p, hset⟩ := hset
  have htab : C07.table (es ++ [d]) = put d (C07.table es) := C07.table_snoc es d
  unfold write
  dsimp only
  cases ha : o.att with
  | false =>
    rw [if_neg (by simp), hset, Res.bind_ok]
    refine ⟨_, rfl, rfl, .inl ⟨?_, .inr (h.natt ha)⟩⟩
    refine ⟨reach1, ⟨ps1, r1⟩, htame, hwrote, ?_, fun _ => h.natt ha, nofun, nofun, h.asc, h.within, nofun⟩
    have := h.pend
    rw [ha] at this
    exact this
  | true =>
    rw [if_pos rfl]
    obtain ⟨it, adv, rest, k1, k2⟩ := hst ha
    have hlen : (C07.table es).length ≤ sp := by
      have := C07.put_length_ge (C07.table_ascending es) d
      rw [htab] at hroom
      omega
    have hone : o.part.act.countPages ≤ 1 := by
      rcases h.reach.single with g | g
      · exact g
      · omega
    rcases write_on mc h.reach.inv hone h.reach.iters k2 hd hwd hR (hle ha) hge
      (by rw [h.reach.hsp, ← htab]; exact hroom) with hnil | ⟨t', p', it', w1, w2, w3, w4⟩
    · exact absurd hnil (h.full ha)
    · rw [hset] at w1
      cases w1
      rw [k1]
      dsimp only
      rw [w2, Res.bind_ok]
      dsimp only
      have hm1 : ({ m1 with iters := [] } : Memtable) = m1 := by rw [← w3]
      rw [hm1]
      refine ⟨_, rfl, rfl, ?_⟩
      have hpend := h.pend
      rw [ha, k1] at hpend
      have hfull : C07.table (es ++ [d]) ≠ [] := by
        rw [htab]; unfold put; simp
      have hmem : ∀ x ∈ put d (C07.table es), x = d ∨ x ∈ C07.table es ∧ ¬ evCmp x d = 0 := by
        intro x hx
        rcases mem_put.1 hx with g | ⟨g1, g2⟩
        · exact .inl g
        · exact .inr ⟨g1, g2⟩
      rcases w4 with ⟨w4, w5⟩ | ⟨w5, w6, w7, w8⟩
      · left
        have hx5 : (∃ x ∈ R, x.pair = e.pair) ∨ R' = [] := by
          rcases w5 with ⟨x, hx, hp⟩ | w5
          · rcases hle ha x hx with g | g
            · exact .inl ⟨x, g, hp⟩
            · rw [evCmp_eq.2 hp] at g; omega
          · exact .inr w5
        refine ⟨?_, hx5⟩
        refine ⟨reach1, ⟨ps1, r1⟩, htame, hwrote, ?_, nofun, fun _ => hfull, fun _ => ?_, h.asc, h.within, fun _ x hx => ?_⟩
        · exact ⟨on_pending cs mc reach1.inv (by rw [htab]; exact w4), hpend.2⟩
        · exact ⟨it', adv, rest, rfl, by rw [htab]; exact w4⟩
        · rw [htab] at hx
          rcases hmem x hx with rfl | ⟨g1, g2⟩
          · exact .inr fun y hy => by rw [hde]; exact hfl y hy
          · exact h.le ha x g1
      · right
        refine ⟨?_, w8, w7⟩
        subst w5
        refine ⟨reach1, ⟨ps1, r1⟩, htame, hwrote, ?_, nofun, fun _ => hfull, fun _ => ?_, ?_, ?_, fun _ x hx => ?_⟩
        · exact ⟨on_pending cs mc reach1.inv (by rw [htab]; exact w6), hpend.2⟩
        · exact ⟨it', false, rest, rfl, by rw [htab]; exact w6⟩
        · intro L hL
          rcases List.mem_cons.1 hL with rfl | hL
          · have hr := h.asc R' (by simp)
            refine ⟨List.pairwise_cons.2 ⟨fun x hx => ?_, hr.1⟩, fun x hx => ?_⟩
            · rw [hde]; exact hfl x (by simp [hx])
            · rcases List.mem_cons.1 hx with rfl | hx
              · exact hwind
              · exact hr.2 x hx
          · exact h.asc L (List.mem_cons_of_mem _ hL)
        · intro x hx
          rw [List.flatten_cons, List.cons_append] at hx
          rcases List.mem_cons.1 hx with rfl | hx
          · exact hwd
          · exact h.within x (by rw [List.flatten_cons]; exact hx)
        · rw [htab] at hx
          rcases hmem x hx with rfl | ⟨g1, g2⟩
          · exact .inl (by simp)
          · rcases h.le ha x g1 with g | g
            · exact .inl (List.mem_cons_of_mem _ g)
            · right
              intro y hy
              rw [List.flatten_cons, List.cons_append] at hy
              rcases List.mem_cons.1 hy with rfl | hy
              · rw [hde']
                rcases hle ha x g1 with k | k
                · exfalso
                  have hx' : x ∈ R' := by
                    rw [hR]
                    exact List.mem_filter.2 ⟨k, by simpa using w7 x g1⟩
                  have := g x (by simp [hx'])
                  rw [evCmp_refl] at this
                  omega
                · exact k
              · exact g y (by rw [List.flatten_cons]; exact hy)

/-! ### The loops -/

variable {cs : Codecs} {mc : MemCmp} {change : Event → Option Event}

/-- The loop after monotone_next or monotone_cursor. -/
def cont (cs : Codecs) (mc : MemCmp) (change : Event → Option Event) (fuel n : Nat) :
    Option State → Res (Option (List Event × State))
  | none => .ok none
  | some st => loop cs mc change fuel n st

/-- After engine_cursor_next or engine_cursor_open came to `st`, the application
reads `out` and ends in `st'`. -/
def Arr (cs : Codecs) (mc : MemCmp) (change : Event → Option Event) (st : State) (out : List Event) (st' : State) : Prop :=
  ∃ N, ∀ fuel k n, N ≤ fuel → N ≤ k → N ≤ n → (skip cs mc k st).bind (cont cs mc change fuel n) = .ok (some (out, st'))

/-- The same from engine_cursor_next on. -/
def Fwd (cs : Codecs) (mc : MemCmp) (change : Event → Option Event) (st : State) (out : List Event) (st' : State) : Prop :=
  ∃ N, ∀ fuel k n, N ≤ fuel → N ≤ k → N ≤ n →
    ((next cs mc st).bind (skip cs mc k)).bind (cont cs mc change fuel n) = .ok (some (out, st'))

theorem fwd_next {st st2 st' : State} {out : List Event} (h : next cs mc st = .ok st2)
    (ha : Arr cs mc change st2 out st') : Fwd cs mc change st out st' := by
  obtain ⟨N, hN⟩ := ha
  exact ⟨N, fun fuel k n h1 h2 h3 => by rw [h, Res.bind_ok]; exact hN fuel k n h1 h2 h3⟩

theorem arr_of_fwd {st st2 st' : State} {out : List Event} (h : next cs mc st = .ok st2)
    (ha : Fwd cs mc change st out st') : Arr cs mc change st2 out st' := by
  obtain ⟨N, hN⟩ := ha
  exact ⟨N, fun fuel k n h1 h2 h3 => by have := hN fuel k n h1 h2 h3; rw [h, Res.bind_ok] at this; exact this⟩

theorem arr_dead {past todo : List CPart} {o : Open} {st' : State} {out : List Event} {x : Option Event}
    (hx : o.cursor.at' (fns cs mc) = .ok x) (hd : dead x = true)
    (hf : Fwd cs mc change ⟨past, some o, todo⟩ out st') : Arr cs mc change ⟨past, some o, todo⟩ out st' := by
  obtain ⟨N, hN⟩ := hf
  refine ⟨N + 1, fun fuel k n h1 h2 h3 => ?_⟩
  obtain ⟨k, rfl⟩ : ∃ k', k = k' + 1 := ⟨k - 1, by omega⟩
  have := hN fuel k n (by omega) (by omega) (by omega)
  unfold Sweep.skip
  dsimp only
  have hat : at_ cs mc ⟨past, some o, todo⟩ = .ok x := hx
  rw [hat, Res.bind_ok]
  cases x with
  | none => exact this
  | some e =>
    dsimp only
    rw [if_pos (show e.isDelete = true from hd)]
    exact this

theorem arr_live {past todo : List CPart} {o : Open} {st2 st' : State} {out : List Event} {e : Event}
    (hx : o.cursor.at' (fns cs mc) = .ok (some e)) (hd : e.isDelete = false)
    (hc : edit mc change e ⟨past, some o, todo⟩ = .ok st2)
    (hf : Fwd cs mc change st2 out st') : Arr cs mc change ⟨past, some o, todo⟩ (e :: out) st' := by
  obtain ⟨N, hN⟩ := hf
  refine ⟨N + 1, fun fuel k n h1 h2 h3 => ?_⟩
  obtain ⟨k, rfl⟩ : ∃ k', k = k' + 1 := ⟨k - 1, by omega⟩
  obtain ⟨n, rfl⟩ : ∃ n', n = n' + 1 := ⟨n - 1, by omega⟩
  have := hN fuel fuel n (by omega) (by omega) (by omega)
  have hat : at_ cs mc ⟨past, some o, todo⟩ = .ok (some e) := hx
  have hsk : skip cs mc (k + 1) ⟨past, some o, todo⟩ = .ok (some ⟨past, some o, todo⟩) := by
    unfold Sweep.skip
    dsimp only
    rw [hat, Res.bind_ok]
    dsimp only
    rw [if_neg (by rw [hd]; simp)]
  rw [hsk, Res.bind_ok]
  unfold cont loop
  dsimp only
  have hrd : Sweep.read cs mc ⟨past, some o, todo⟩ = .ok (some e) := by
    unfold Sweep.read
    rw [hat, Res.bind_ok]
    simp [hd]
  rw [hrd, Res.bind_ok]
  dsimp only
  rw [hc, Res.bind_ok]
  unfold Sweep.step
  rw [Res.bind_eq_ok] at this
  obtain ⟨r, g1, g2⟩ := this
  rw [g1, Res.bind_ok]
  cases r with
  | none => unfold cont at g2; cases g2
  | some st3 =>
    unfold cont at g2
    dsimp only at g2 ⊢
    rw [g2, Res.bind_ok]

theorem arr_end {past todo : List CPart} : Arr cs mc change ⟨past, none, todo⟩ [] ⟨past, none, todo⟩ := by
  refine ⟨1, fun fuel k n h1 h2 h3 => ?_⟩
  obtain ⟨k, rfl⟩ : ∃ k', k = k' + 1 := ⟨k - 1, by omega⟩
  obtain ⟨n, rfl⟩ : ∃ n', n = n' + 1 := ⟨n - 1, by omega⟩
  rfl

/-! ### One partition -/

theorem merged_nil {Ls : List (List Event)} {M : List Event} (h : C13.Merged Ls M) (he : Ls.flatten = []) : M = [] := by
  cases M with
  | nil => rfl
  | cons x M =>
    have := (h.2 x).1 (by simp)
    rw [he] at this
    simp at this

theorem merged_uncons {Ls : List (List Event)} {M : List Event} {e : Event} (h : C13.Merged Ls M)
    (h1 : Ls.flatten.find? (fun a => a.pair == e.pair) = some e) (h2 : ∀ x ∈ Ls.flatten, evCmp e x ≤ 0) :
    ∃ M', M = e :: M' ∧ C13.Merged (Ls.map (List.filter fun a => a.pair != e.pair)) M' := by
  have heM : e ∈ M := (h.2 e).2 h1
  cases M with
  | nil => simp at heM
  | cons x M =>
    have hxe : x = e := by
      rcases List.mem_cons.1 heM with g | g
      · exact g.symm
      · exfalso
        have g1 := (List.pairwise_cons.1 h.1).1 e g
        have g2 := h2 x (List.mem_of_find?_eq_some ((h.2 x).1 (by simp)))
        have := evCmp_swap e x
        omega
    subst hxe
    refine ⟨M, rfl, (List.pairwise_cons.1 h.1).2, fun y => ?_⟩
    rw [show (Ls.map (List.filter fun a => a.pair != x.pair)).flatten =
      Ls.flatten.filter (fun a => a.pair != x.pair) from by rw [List.filter_flatten]]
    have hy := h.2 y
    rw [List.mem_cons] at hy
    by_cases hp : y.pair = x.pair
    · constructor
      · intro g
        have := (List.pairwise_cons.1 h.1).1 y g
        rw [evCmp_eq.2 hp.symm] at this
        omega
      · intro g
        have := (List.mem_filter.1 (List.mem_of_find?_eq_some g)).2
        simp [hp] at this
    · have hne : y ≠ x := fun g => hp (by rw [g])
      rw [List.find?_filter]
      have heq : (fun a : Event => decide ((a.pair != x.pair) = true ∧ (a.pair == y.pair) = true)) =
          fun a => a.pair == y.pair := by
        funext a
        by_cases h : a.pair = y.pair
        · simp [h, hp]
        · simp [h]
      rw [heq, ← hy]
      simp [hne]

/-- The live ones. -/
def live (M : List Event) : List Event := M.filter fun e => !e.isDelete

theorem again_filter {R : List Event} {e x : Event} (h : evCmp e x < 0) :
    again change (R.filter fun a => a.pair != e.pair) x = again change R x := by
  have hne : x.pair ≠ e.pair := fun g => by
    rw [evCmp_eq.2 g.symm] at h; omega
  have h1 : (R.filter fun a => a.pair != e.pair).any (fun a => a.pair == x.pair) = R.any (fun a => a.pair == x.pair) := by
    rw [Bool.eq_iff_iff, List.any_eq_true, List.any_eq_true]
    constructor
    · rintro ⟨a, ha, hp⟩; exact ⟨a, (List.mem_filter.1 ha).1, hp⟩
    · rintro ⟨a, ha, hp⟩
      refine ⟨a, List.mem_filter.2 ⟨ha, ?_⟩, hp⟩
      have : a.pair = x.pair := by simpa using hp
      simpa [this] using hne
  have h2 : (R.filter fun a => a.pair != e.pair).any (fun a => decide (evCmp x a < 0)) = R.any (fun a => decide (evCmp x a < 0)) := by
    rw [Bool.eq_iff_iff, List.any_eq_true, List.any_eq_true]
    constructor
    · rintro ⟨a, ha, hp⟩; exact ⟨a, (List.mem_filter.1 ha).1, hp⟩
    · rintro ⟨a, ha, hp⟩
      refine ⟨a, List.mem_filter.2 ⟨ha, ?_⟩, hp⟩
      have hxa : evCmp x a < 0 := by simpa using hp
      simp only [bne_iff_ne, ne_eq]
      intro hz
      have h3 : evCmp x a = evCmp x e := by unfold evCmp; rw [hz]
      have := evCmp_swap x e
      omega
  unfold again
  rw [h1, h2]

theorem reads_cons (R : List Event) (e : Event) (M : List Event) :
    reads change R (e :: M) = e :: (again change R e).toList ++ reads change R M := by
  simp [reads]

theorem writes_cons (R : List Event) (e : Event) (M : List Event) :
    writes change R (e :: M) = (change e).toList ++ ((again change R e).bind change).toList ++ writes change R M := by
  simp [writes]

theorem reads_congr {R R' M : List Event} (h : ∀ x ∈ M, again change R x = again change R' x) :
    reads change R M = reads change R' M := by
  induction M with
  | nil => rfl
  | cons x M ih => rw [reads_cons, reads_cons, h x (by simp), ih fun y hy => h y (by simp [hy])]

theorem writes_congr {R R' M : List Event} (h : ∀ x ∈ M, again change R x = again change R' x) :
    writes change R M = writes change R' M := by
  induction M with
  | nil => rfl
  | cons x M ih => rw [writes_cons, writes_cons, h x (by simp), ih fun y hy => h y (by simp [hy])]

theorem inner {sp ss base : Nat} (h1 : 0 < ss) (h2 : ss < sp) (hown : Own change) {todo : List CPart} {rest : List Event}
    {ps' : List CPart} (hQ : ∀ past, ∃ st st', openNext cs mc past todo = .ok st ∧ Arr cs mc change st rest st' ∧
      st'.parts = past ++ ps') (past : List CPart) : ∀ (n : Nat) (o : Open) (es R : List Event) (Rs : List (List Event)) (M : List Event),
      Ready cs mc sp ss base o es R Rs → (R :: Rs).flatten.length ≤ n → C13.Merged (R :: Rs) M →
      (C07.table es).length + (writes change R (live M)).length ≤ sp →
      ∃ m' ps st', C07.run mc (Memtable.init sp ss) (es ++ writes change R (live M)) = .ok (m', ps) ∧
        Fwd cs mc change ⟨past, some o, todo⟩ (reads change R (live M) ++ rest) st' ∧
        st'.parts = past ++ { o.part with act := m' } :: ps' := by
  intro n
  induction n with
  | zero =>
    intro o es R Rs M hr hn hM hfit
    have hnil : (R :: Rs).flatten = [] := List.length_eq_zero_iff.1 (by omega)
    have hM0 := merged_nil hM hnil
    subst hM0
    obtain ⟨m', e1, hc⟩ := ready_next hr
    rcases hc with ⟨_, hh, _⟩ | ⟨e, _, _, hf, _⟩
    · obtain ⟨st, st', g1, g2, g3⟩ := hQ (past ++ [o.part])
      obtain ⟨ps, hrun⟩ := hr.run
      refine ⟨o.part.act, ps, st', by simpa [live, reads, writes] using hrun, ?_, by rw [g3]; simp⟩
      refine fwd_next (st2 := st) ?_ (by simpa [live, reads, writes] using g2)
      unfold Sweep.next
      dsimp only
      rw [e1, Res.bind_ok, if_neg (by rw [hh]; simp), g1]
    · rw [hnil] at hf; simp at hf
  | succ n ih =>
    intro o es R Rs M hr hn hM hfit
    obtain ⟨m', e1, hc⟩ := ready_next hr
    rcases hc with ⟨hnil, hh, _⟩ | ⟨e, hh, hat, hfind, hmin, hr1, hst⟩
    · have hM0 := merged_nil hM hnil
      subst hM0
      obtain ⟨st, st', g1, g2, g3⟩ := hQ (past ++ [o.part])
      obtain ⟨ps, hrun⟩ := hr.run
      refine ⟨o.part.act, ps, st', by simpa [live, reads, writes] using hrun, ?_, by rw [g3]; simp⟩
      refine fwd_next (st2 := st) ?_ (by simpa [live, reads, writes] using g2)
      unfold Sweep.next
      dsimp only
      rw [e1, Res.bind_ok, if_neg (by rw [hh]; simp), g1]
    · obtain ⟨M', rfl, hM'⟩ := merged_uncons hM hfind hmin
      have hmem := List.mem_of_find?_eq_some hfind
      have hfl : (R.filter (fun a => a.pair != e.pair) :: Rs.map (List.filter fun a => a.pair != e.pair)).flatten =
          (R :: Rs).flatten.filter fun a => a.pair != e.pair := by
        rw [List.filter_flatten]; rfl
      have hgt : ∀ y ∈ (R.filter (fun a => a.pair != e.pair) :: Rs.map (List.filter fun a => a.pair != e.pair)).flatten,
          evCmp e y < 0 := by
        intro y hy
        rw [hfl] at hy
        obtain ⟨hy1, hy2⟩ := List.mem_filter.1 hy
        have h6 := hmin y hy1
        have h7 : evCmp e y ≠ 0 := fun hz => by
          have := evCmp_eq.1 hz
          simp [this] at hy2
        omega
      have hlen : (R.filter (fun a => a.pair != e.pair) :: Rs.map (List.filter fun a => a.pair != e.pair)).flatten.length ≤ n := by
        rw [hfl]
        have : (R :: Rs).flatten.filter (fun a => a.pair != e.pair) ≠ (R :: Rs).flatten := fun h => by
          rw [List.filter_eq_self] at h
          simpa using h e hmem
        have h3 := List.length_filter_le (fun a => a.pair != e.pair) (R :: Rs).flatten
        have h4 : ((R :: Rs).flatten.filter (fun a => a.pair != e.pair)).length ≠ (R :: Rs).flatten.length := fun h =>
          this (List.length_filter_eq_length_iff.1 h |> List.filter_eq_self.2)
        omega
      have hag : ∀ x ∈ live M', again change (R.filter fun a => a.pair != e.pair) x = again change R x := by
        intro x hx
        have := (List.pairwise_cons.1 hM.1).1 x (List.mem_filter.1 hx).1
        exact again_filter this
      have hrd : reads change R (live M') = reads change (R.filter fun a => a.pair != e.pair) (live M') := reads_congr fun x hx => (hag x hx).symm
      have hwr : writes change R (live M') = writes change (R.filter fun a => a.pair != e.pair) (live M') := writes_congr fun x hx => (hag x hx).symm
      have hnx : next cs mc ⟨past, some o, todo⟩ = .ok ⟨past, some { o with cursor := m' }, todo⟩ := by
        unfold Sweep.next
        dsimp only
        rw [e1, Res.bind_ok, if_pos hh]
      by_cases hdel : e.isDelete = true
      · have hlive : live (e :: M') = live M' := by simp [live, hdel]
        rw [hlive, hwr] at hfit
        rw [hlive, hrd, hwr]
        obtain ⟨m2, ps, st', g1, g2, g3⟩ := ih _ es _ _ M' hr1 hlen hM' hfit
        exact ⟨m2, ps, st', g1, fwd_next hnx (arr_dead hat hdel g2), g3⟩
      · have hdel : e.isDelete = false := by simpa using hdel
        have hlive : live (e :: M') = e :: live M' := by simp [live, hdel]
        rw [hlive, writes_cons, hwr] at hfit
        rw [hlive, reads_cons, writes_cons, hrd, hwr]
        cases hch : change e with
        | none =>
          have hno : again change R e = none := by unfold again; rw [hch]
          rw [hno] at hfit ⊢
          obtain ⟨m2, ps, st', g1, g2, g3⟩ := ih _ es _ _ M' hr1 hlen hM' (by simpa [hch] using hfit)
          refine ⟨m2, ps, st', by simpa [hch] using g1, fwd_next hnx ?_, g3⟩
          exact arr_live hat hdel (by unfold edit; rw [hch]) (by simpa using g2)
        | some d =>
          have hde := hown e d hch
          have htl : (C07.table (es ++ [d])).length ≤ (C07.table es).length + 1 := by
            rw [C07.table_snoc]; exact put_length_le _ _
          have hle : o.att = true → ∀ x ∈ C07.table es, x ∈ R ∨ evCmp x e < 0 := fun ha x hx => by
            rcases hr.le ha x hx with g | g
            · exact .inl g
            · exact .inr (g e hmem)
          have hwin : C13.Window 0 e := by
            obtain ⟨L, hL, hx⟩ := List.mem_flatten.1 hmem
            exact (hr.asc L hL).2 e hx
          rw [hch] at hfit
          simp only [Option.toList_some, List.length_append, List.length_singleton] at hfit
          obtain ⟨o2, w1, w2, w3⟩ := ready_write (R := R) h1 h2 hr1 hst rfl hgt hle
            (fun x hx => hmin x (by simp [hx])) hde (hr.within e hmem) hwin (by omega) past todo
          have hcc : edit mc change e ⟨past, some { o with cursor := m' }, todo⟩ = .ok ⟨past, some o2, todo⟩ := by
            unfold edit
            rw [hch]; exact w1
          rcases w3 with ⟨w3, w4⟩ | ⟨w3, w4, w5⟩
          · have hno : again change R e = none := by
              unfold again
              rw [hch]
              dsimp only
              split
              · rfl
              · rcases w4 with ⟨x, hx, hp⟩ | w4
                · rw [if_pos (List.any_eq_true.2 ⟨x, hx, by simp [hp]⟩)]
                · rw [if_neg (c := R.any fun a => decide (evCmp e a < 0))]
                  · simp
                  · intro hany
                    obtain ⟨a, ha, hlt⟩ := List.any_eq_true.1 hany
                    have hlt : evCmp e a < 0 := by simpa using hlt
                    have : a ∈ R.filter fun a => a.pair != e.pair := List.mem_filter.2 ⟨ha, by
                      simp only [bne_iff_ne, ne_eq]
                      intro hz
                      rw [evCmp_eq.2 hz.symm] at hlt
                      omega⟩
                    rw [w4] at this
                    simp at this
            rw [hno] at hfit ⊢
            simp only [Option.bind_none, Option.toList_none, List.length_nil] at hfit
            obtain ⟨m2, ps, st', g1, g2, g3⟩ := ih o2 (es ++ [d]) _ _ M' w3 hlen hM' (by omega)
            refine ⟨m2, ps, st', by simpa [hch] using g1, fwd_next hnx (arr_live hat hdel hcc (by simpa using g2)), ?_⟩
            rw [g3, w2]
          · -- the change comes next
            obtain ⟨m3, e3, hc3⟩ := ready_next w3
            have hcmp : ∀ y, evCmp d y = evCmp e y := fun y => by unfold evCmp; rw [hde]
            rcases hc3 with ⟨hnil, _, _⟩ | ⟨x, hh3, hat3, hfind3, hmin3, hr3, hst3⟩
            · simp at hnil
            · have hxd : x = d := by
                have k1 := List.mem_of_find?_eq_some hfind3
                have k2 := hmin3 d (by simp)
                have k3 : x.pair = d.pair := by
                  rw [List.flatten_cons, List.cons_append] at k1
                  rcases List.mem_cons.1 k1 with g | g
                  · rw [g]
                  · exfalso
                    have k3 := hgt x (by rw [List.flatten_cons]; exact g)
                    rw [← hcmp] at k3
                    have := evCmp_swap x d
                    omega
                rw [k3] at hfind3
                rw [List.flatten_cons, List.cons_append, List.find?_cons_of_pos (by simp)] at hfind3
                exact (Option.some.inj hfind3).symm
              subst hxd
              have hkeep : ∀ l : List Event, (∀ y ∈ l, evCmp e y < 0) → l.filter (fun a => a.pair != x.pair) = l := by
                intro l hl
                rw [List.filter_eq_self]
                intro y hy
                have := hl y hy
                simp only [bne_iff_ne, ne_eq]
                intro hz
                rw [evCmp_eq.2 (by rw [hz, hde])] at this
                omega
              have hR3 : (x :: R.filter fun a => a.pair != e.pair).filter (fun a => a.pair != x.pair) =
                  R.filter fun a => a.pair != e.pair := by
                rw [List.filter_cons_of_neg (by simp)]
                exact hkeep _ fun y hy => hgt y (by simp only [List.flatten_cons, List.mem_append]; exact .inl hy)
              have hRs3 : (Rs.map (List.filter fun a => a.pair != e.pair)).map (List.filter fun a => a.pair != x.pair) =
                  Rs.map (List.filter fun a => a.pair != e.pair) := by
                rw [show x.pair = e.pair from hde, List.map_map]
                apply List.map_congr_left
                intro l _
                simp [List.filter_filter]
              rw [hRs3] at hr3
              have hnx3 : Sweep.next cs mc ⟨past, some o2, todo⟩ = .ok ⟨past, some { o2 with cursor := m3 }, todo⟩ := by
                unfold Sweep.next
                dsimp only
                rw [e3, Res.bind_ok, if_pos hh3]
              have hpart : ∀ m2 : Memtable, { o2.part with act := m2 } = { o.part with act := m2 } := fun m2 => by
                rw [w2]
              by_cases hdd : x.isDelete = true
              · have hno : again change R e = none := by unfold again; rw [hch]; dsimp only; rw [if_pos hdd]
                rw [hno] at hfit ⊢
                simp only [Option.bind_none, Option.toList_none, List.length_nil] at hfit
                rw [hR3] at hr3
                obtain ⟨m2, ps, st', g1, g2, g3⟩ := ih _ (es ++ [x]) _ _ M' hr3 hlen hM' (by omega)
                refine ⟨m2, ps, st', by simpa [hch] using g1, fwd_next hnx (arr_live hat hdel hcc (fwd_next hnx3
                  (arr_dead hat3 (show dead (some x) = true from hdd) (by simpa using g2)))), ?_⟩
                rw [g3]
                dsimp only
                rw [w2]
              · have hdf : x.isDelete = false := by simpa using hdd
                have hyes : again change R e = some x := by
                  unfold again
                  rw [hch]
                  dsimp only
                  rw [if_neg hdd, if_neg, if_pos]
                  · obtain ⟨a, as, ha⟩ := List.exists_cons_of_ne_nil w4
                    have hm : a ∈ R.filter fun a => a.pair != e.pair := by rw [ha]; simp
                    have k1 := hgt a (by simp only [List.flatten_cons, List.mem_append]; exact .inl hm)
                    exact List.any_eq_true.2 ⟨a, (List.mem_filter.1 hm).1, by simpa using k1⟩
                  · intro hany
                    obtain ⟨a, ha, hp⟩ := List.any_eq_true.1 hany
                    exact w5 a (hr.sub a ha) (by simpa using hp)
                rw [hyes] at hfit ⊢
                simp only [Option.bind_some] at hfit
                cases hch2 : change x with
                | none =>
                  rw [hR3] at hr3
                  obtain ⟨m2, ps, st', g1, g2, g3⟩ := ih _ (es ++ [x]) _ _ M' hr3 hlen hM' (by omega)
                  refine ⟨m2, ps, st', by simpa [hch, hch2] using g1, fwd_next hnx ?_, ?_⟩
                  · have := arr_live hat hdel hcc (fwd_next hnx3 (arr_live hat3 hdf (by unfold edit; rw [hch2]) g2))
                    simpa using this
                  · rw [g3]
                    dsimp only
                    rw [w2]
                | some d2 =>
                  rw [hch2] at hfit
                  simp only [Option.toList_some, List.length_singleton] at hfit
                  have htl2 : (C07.table (es ++ [x] ++ [d2])).length ≤ (C07.table (es ++ [x])).length + 1 := by
                    rw [C07.table_snoc (es ++ [x])]; exact put_length_le _ _
                  have hxm : x ∈ ((x :: R.filter fun a => a.pair != e.pair) :: Rs.map (List.filter fun a => a.pair != e.pair)).flatten := by simp
                  have hwinx : C13.Window 0 x := (w3.asc _ List.mem_cons_self).2 x (by simp)
                  obtain ⟨o3, v1, v2, v3⟩ := ready_write (R := x :: R.filter fun a => a.pair != e.pair) h1 h2 hr3 hst3 rfl
                    (by rw [hR3]; intro y hy; rw [hcmp]; exact hgt y hy)
                    (fun ha y hy => by
                      rcases w3.le ha y hy with g | g
                      · exact .inl g
                      · exact .inr (g x hxm))
                    (fun y hy => hmin3 y (by simp only [List.flatten_cons, List.mem_append]; exact .inl hy))
                    (hown x d2 hch2) (w3.within x hxm) hwinx (by omega) past todo
                  have hcc3 : edit mc change x ⟨past, some { o2 with cursor := m3 }, todo⟩ = .ok ⟨past, some o3, todo⟩ := by
                    unfold edit
                    rw [hch2]; exact v1
                  rcases v3 with ⟨v3, _⟩ | ⟨_, _, v5⟩
                  · rw [hR3] at v3
                    obtain ⟨m2, ps, st', g1, g2, g3⟩ := ih o3 (es ++ [x] ++ [d2]) _ _ M' v3 hlen hM' (by omega)
                    refine ⟨m2, ps, st', by simpa [hch, hch2] using g1, fwd_next hnx ?_, ?_⟩
                    · have := arr_live hat hdel hcc (fwd_next hnx3 (arr_live hat3 hdf hcc3 g2))
                      simpa using this
                    · rw [g3, v2]
                      dsimp only
                      rw [w2]
                  · refine absurd rfl (v5 x ?_)
                    rw [C07.table_snoc]
                    exact mem_put.2 (.inl rfl)

end Verif.C88
