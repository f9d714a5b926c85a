import Verif.Proofs.C78Read

/-!
C78: which events the cursor shows, from one partition to the next, and over the
calls of an application.
-/
namespace Verif.C78
open Verif.Scan

/-- The first id asked for. -/
def low : Option Nat → Nat
  | some k => k
  | none => 0

/-- An event that has to be shown. -/
def NL (ps : List Part) (e : Ev) : Prop := (∃ p ∈ ps, Newest p e) ∧ e.del = false

/-- The partition `p` is the first that has events from `lo` on. -/
def First (ps : List Part) (lo : Nat) (p : Part) : Prop :=
  ∀ q ∈ ps, ∀ s, ∀ e ∈ from_ lo (whole q s), q = p ∨ p.max < e.id

/-- The cursor is open, everything below `lo` was shown; `x`: and nothing was lost. -/
def At (ps : List Part) (lo : Nat) (x : Bool) (c : Cur) : Prop :=
  match c.ref with
  | none => c.current = none ∧ (x = true → ∀ e, NL ps e → lo ≤ e.id → False)
  | some (_, p) => p ∈ ps ∧ (x = true → First ps lo p) ∧ ∃ l, lo ≤ l ∧ l ≤ p.max + 1 ∧ Pre p l x c ∧
      (x = true → ∀ s, from_ lo (whole p s) = from_ l (whole p s))

/-- The same, with the current event found. -/
def Sees (ps : List Part) (lo : Nat) (x : Bool) (c : Cur) : Prop :=
  match c.ref with
  | none => c.current = none ∧ (x = true → ∀ e, NL ps e → lo ≤ e.id → False)
  | some (_, p) => p ∈ ps ∧ (x = true → First ps lo p) ∧ ∃ l, lo ≤ l ∧ l ≤ p.max + 1 ∧ Stands p l x c ∧
      (x = true → ∀ s, from_ lo (whole p s) = from_ l (whole p s))

/-- The same, and the current event is to be shown. -/
def Final (ps : List Part) (lo : Nat) (x : Bool) (c : Cur) : Prop :=
  match c.ref with
  | none => c.current = none ∧ (x = true → ∀ e, NL ps e → lo ≤ e.id → False)
  | some _ => ∃ e, at_ c = some e ∧ lo ≤ e.id ∧ NL ps e ∧ At ps (e.id + 1) x c ∧
      (x = true → ∀ e', NL ps e' → lo ≤ e'.id → e' = e ∨ e.id < e'.id)

theorem at_less {ps lo l x c} (h : At ps l x c) (hl : lo ≤ l) : At ps lo false c := by
  unfold At at *
  split at h
  · exact ⟨h.1, fun e => by cases e⟩
  · obtain ⟨h1, _, l', h2, h3, h4, _⟩ := h
    exact ⟨h1, nofun, l', by omega, h3, pre_weak h4, fun e => by cases e⟩

theorem final_less {ps lo x c} (h : Final ps lo x c) : Final ps lo false c := by
  unfold Final at *
  split at h
  · exact ⟨h.1, fun e => by cases e⟩
  · obtain ⟨e, h1, h2, h3, h4, _⟩ := h
    exact ⟨e, h1, h2, h3, at_less h4 (Nat.le_refl _), fun e => by cases e⟩

theorem sound_of {ps : List Part} (hp : Proper ps) {p} (h : p ∈ ps) : Sound p := hp.2 p h

theorem gte_none {ps : List Part} {min} : ∀ {i}, gte ps i min = none → ∀ q ∈ ps, q.max < min := by
  induction ps with
  | nil => intro i _ q hq; simp at hq
  | cons p ps ih =>
    intro i h q hq
    unfold gte at h
    split at h
    · cases h
    · rcases List.mem_cons.1 hq with e | hq
      · subst e; omega
      · exact ih h q hq

theorem gte_some {ps : List Part} {min j} {p : Part} : ∀ {i}, (ps.Pairwise fun p q => p.max < q.min) →
    gte ps i min = some (j, p) → p ∈ ps ∧ min ≤ p.max ∧ ∀ q ∈ ps, min ≤ q.max → q = p ∨ p.max < q.min := by
  induction ps with
  | nil => intro i _ h; cases h
  | cons p' ps ih =>
    intro i hps h
    unfold gte at h
    rw [List.pairwise_cons] at hps
    split at h
    · rename_i hm
      injection h with h
      injection h with _ h
      subst h
      refine ⟨by simp, hm, fun q hq _ => ?_⟩
      rcases List.mem_cons.1 hq with e | hq
      · exact .inl e
      · exact .inr (hps.1 q hq)
    · obtain ⟨h1, h2, h3⟩ := ih hps.2 h
      refine ⟨by simp [h1], h2, fun q hq hm => ?_⟩
      rcases List.mem_cons.1 hq with e | hq
      · subst e; omega
      · exact h3 q hq hm

theorem newest_whole {p : Part} {e : Ev} (h : Newest p e) : ∃ s, e ∈ whole p s := by
  rcases h with h | h | h
  · exact ⟨.a, h⟩
  · exact ⟨.b, h.1⟩
  · exact ⟨.file, h.1⟩

theorem nl_from {ps lo e} (h : NL ps e) (hl : lo ≤ e.id) : ∃ q ∈ ps, Newest q e ∧ ∃ s, e ∈ from_ lo (whole q s) := by
  obtain ⟨⟨q, hq, hn⟩, _⟩ := h
  obtain ⟨s, hs⟩ := newest_whole hn
  exact ⟨q, hq, hn, s, mem_from.2 ⟨hs, hl⟩⟩

theorem apart {ps : List Part} (h : ps.Pairwise fun p q => p.max < q.min) :
    ∀ a ∈ ps, ∀ b ∈ ps, a ≠ b → a.max < b.min ∨ b.max < a.min := by
  induction ps with
  | nil => intro a ha; simp at ha
  | cons y t ih =>
    rw [List.pairwise_cons] at h
    intro a ha b hb hab
    rcases List.mem_cons.1 ha with ea | ha' <;> rcases List.mem_cons.1 hb with eb | hb'
    · exact absurd (ea.trans eb.symm) hab
    · subst ea; exact .inl (h.1 b hb')
    · subst eb; exact .inr (h.1 a ha')
    · exact ih h.2 a ha' b hb' hab

/-- No call of the application leaves by an exception. -/
theorem t_calls_any {ps fuel} : ∀ xs, Tri (fun _ => True) (calls ps fuel xs) (fun _ _ => True) (fun _ => False) := by
  have hany : ∀ {α : Type} (x : M α), Tri (fun _ => True) x (fun _ _ => True) (fun _ => True) := by
    intro α x f s _
    split <;> trivial
  intro xs
  induction xs with
  | nil => exact tri_pure fun _ _ => trivial
  | cons y xs ih =>
    unfold calls
    refine tri_bind (fun _ _ => True) ?_ fun _ => tri_bind _ ih fun _ => tri_pure fun _ _ => trivial
    cases y with
    | read => exact tri_bind (fun _ _ => True) t_read fun _ => tri_pure fun _ _ => trivial
    | next =>
      refine tri_bind (fun _ _ => True) ?_ fun _ => tri_pure fun _ _ => trivial
      unfold monotone_next
      refine tri_bind (fun _ _ => True) (tri_weaken (tri_attempt (E' := fun _ => False) (hany _)) (fun _ h => h)
        (fun _ _ _ => trivial) (fun _ h => h)) fun r => ?_
      rcases r with _ | _ | _ <;> exact tri_pure fun _ _ => trivial

theorem m_assoc {α β γ : Type} (x : M α) (k : α → M β) (l : β → M γ) :
    (x >>= k) >>= l = x >>= fun a => k a >>= l := by
  funext f s
  show M.bind (M.bind x k) l f s = M.bind x (fun a => M.bind (k a) l) f s
  unfold M.bind
  cases x f s <;> rfl

/-! ### Closing -/

theorem r_same {P : St → Prop} {α : Type} {x : M α} (h : ∀ f s, ∃ a s', x f s = .ok a s' ∧ s'.cur = s.cur)
    (hP : ∀ s s', s'.cur = s.cur → P s → P s') : Tri P x (fun _ => P) (fun _ => False) := by
  intro f s hs
  obtain ⟨a, s', e, hc⟩ := h f s
  rw [e]
  exact hP s s' hc hs

theorem r_reader_reset {r} : Tri (fun s => s.cur.ref = r) reader_reset (fun _ s => s.cur.ref = r) (fun _ => False) := by
  unfold reader_reset
  refine tri_bind _ tri_get' fun c => ?_
  refine tri_bind (fun _ s => s.cur.ref = r) ?_ fun _ => ?_
  · split
    · exact tri_bind (fun _ s => s.cur.ref = r) (tri_act fun _ h => h) fun _ => tri_modify fun _ h => h
    · exact tri_pure fun _ h => h
  · split
    · exact tri_bind (fun _ s => s.cur.ref = r) (tri_act fun _ h => h) fun _ => tri_modify fun _ h => h
    · exact tri_pure fun _ h => h

theorem r_close_unlock {r i} : Tri (fun s => s.cur.ref = r)
    (do part_cursor_close; engine_unlock i; modify fun c => { c with ref := none })
    (fun _ s => s.cur.ref = none ∧ s.cur.list = [] ∧ s.cur.current = none) (fun _ => False) := by
  unfold part_cursor_close close_a engine_unlock
  refine tri_bind (fun _ s => s.cur.list = [] ∧ s.cur.current = none) ?_ fun _ =>
    tri_bind (fun _ s => s.cur.list = [] ∧ s.cur.current = none) ?_ fun _ => tri_modify fun s h => ⟨rfl, h⟩
  · refine tri_bind (fun _ s => s.cur.ref = r) ?_ fun _ => tri_bind (fun _ s => s.cur.ref = r) (tri_modify fun _ h => h) fun _ =>
      tri_bind _ r_reader_reset fun _ => tri_modify fun _ _ => ⟨rfl, rfl⟩
    refine tri_bind _ tri_get' fun c => tri_bind (fun _ s => s.cur.ref = r) ?_ fun _ => tri_modify fun _ h => h
    split
    · exact tri_act fun _ h => h
    · exact tri_pure fun _ h => h
  · exact tri_bind (fun _ s => s.cur.list = [] ∧ s.cur.current = none) (tri_act fun _ h => h) fun _ =>
      tri_bind (fun _ s => s.cur.list = [] ∧ s.cur.current = none) (tri_act fun _ h => h) fun _ =>
      tri_bind (fun _ s => s.cur.list = [] ∧ s.cur.current = none) (tri_act fun _ h => h) fun _ =>
      tri_act fun _ h => h

/-! ### The engine cursor -/

theorem r_open_part {ps lo x min key} (hp : Proper ps)
    (hn : gte ps 0 min = none → x = true → ∀ e, NL ps e → lo ≤ e.id → False)
    (hs : ∀ i p, gte ps 0 min = some (i, p) → (x = true → First ps lo p) ∧ ∃ l, lo ≤ l ∧ l ≤ p.max + 1 ∧ Begins p l key ∧
      (x = true → ∀ s, from_ lo (whole p s) = from_ l (whole p s))) :
    Tri (fun s => s.cur.list = [] ∧ s.cur.current = none) (open_part ps min key)
      (fun _ s => Sees ps lo x s.cur ∧ s.cur.ref = gte ps 0 min) (fun s => At ps lo false s.cur) := by
  unfold open_part
  refine tri_bind (fun r s => (s.cur.list = [] ∧ s.cur.current = none) ∧ r = gte ps 0 min) ?_ fun r =>
    tri_bind (fun _ s => (s.cur.list = [] ∧ s.cur.current = none) ∧ r = gte ps 0 min ∧ s.cur.ref = r) ?_ fun _ => ?_
  · unfold engine_lock
    refine tri_bind (fun _ s => s.cur.list = [] ∧ s.cur.current = none) (tri_act fun _ h => h) fun _ =>
      tri_bind (fun _ s => s.cur.list = [] ∧ s.cur.current = none) (tri_act fun _ h => h) fun _ => ?_
    cases hg : gte ps 0 min with
    | none =>
      exact tri_bind (fun _ s => s.cur.list = [] ∧ s.cur.current = none) (tri_act fun _ h => h) fun _ =>
        tri_bind (fun _ s => s.cur.list = [] ∧ s.cur.current = none) (tri_act fun _ h => h) fun _ =>
        tri_pure fun s h => ⟨h, rfl⟩
    | some ip =>
      exact tri_bind (fun _ s => s.cur.list = [] ∧ s.cur.current = none) (tri_act fun _ h => h) fun _ =>
        tri_bind (fun _ s => s.cur.list = [] ∧ s.cur.current = none) (tri_act fun _ h => h) fun _ =>
        tri_pure fun s h => ⟨h, rfl⟩
  · exact tri_modify fun s h => ⟨h.1, h.2, rfl⟩
  · cases r with
    | none =>
      refine tri_pure fun s h => ⟨?_, h.2.2.trans h.2.1⟩
      unfold Sees
      rw [h.2.2]
      exact ⟨h.1.2, hn h.2.1.symm⟩
    | some ip =>
      obtain ⟨i, p⟩ := ip
      refine tri_pre fun s0 h0 => ?_
      obtain ⟨hf, l, hl1, hl2, hb, he⟩ := hs i p h0.2.1.symm
      have hm := gte_some hp.1 h0.2.1.symm
      refine tri_weaken (r_part_cursor_open (p := p) (lo := l) (r := some (i, p)) (sound_of hp hm.1) hb) (fun s h => ?_)
        (fun _ s h => ?_) (fun s h => ?_)
      · rw [h]; exact ⟨h0.1.1, h0.2.2⟩
      · refine ⟨?_, h.2.trans h0.2.1⟩
        unfold Sees
        rw [h.2]
        exact ⟨hm.1, hf, l, hl1, hl2, stands_weak h.1 x, he⟩
      · unfold At
        rw [h.2]
        exact ⟨hm.1, nofun, l, hl1, hl2, h.1, fun e => by cases e⟩

/-- Where the cursor goes: to an event of the same partition, to a later one, or to
the end. -/
def Moved : Option (Nat × Part) → Cur → Prop
  | none, c => c.ref = none
  | some (i, p), c => c.ref = none ∨ (c.ref = some (i, p) ∧ at_ c ≠ none) ∨ ∃ j q, c.ref = some (j, q) ∧ p.max < q.max

theorem r_engine_moves {ps lo x r} (hp : Proper ps) :
    Tri (fun s => At ps lo x s.cur ∧ s.cur.ref = r) (engine_cursor_next ps)
      (fun _ s => Sees ps lo x s.cur ∧ Moved r s.cur) (fun s => At ps lo false s.cur) := by
  unfold engine_cursor_next
  refine tri_bind _ tri_get fun c => tri_pre fun s0 h0 => ?_
  obtain ⟨⟨h0, hr0⟩, hc⟩ := h0
  rw [hc] at hr0
  subst hr0
  cases hr : c.ref with
  | none =>
    refine tri_pure fun s h => ?_
    rw [h]
    refine ⟨?_, by rw [hc]; exact hr⟩
    unfold At at h0
    unfold Sees
    rw [hc, hr] at h0 ⊢
    exact h0
  | some ip =>
    obtain ⟨i, p⟩ := ip
    unfold At at h0
    rw [hc, hr] at h0
    obtain ⟨hm, hF, l, hl1, hl2, hpre, heq⟩ := h0
    have hsp := sound_of hp hm
    refine tri_bind _ (tri_weaken (r_merge_next (p := p) (lo := l) (x := x) (r := some (i, p)) hsp) (fun s h => ?_)
      (fun _ _ h => h) (fun s h => ?_)) fun _ => tri_bind _ tri_get fun c' => tri_pre fun s1 h1 => ?_
    · rw [h, hc]; exact ⟨hpre, hr⟩
    · unfold At
      rw [h.2]
      exact ⟨hm, nofun, l, hl1, hl2, h.1, fun e => by cases e⟩
    · obtain ⟨⟨hst, href⟩, hc'⟩ := h1
      cases hcur : c'.current with
      | some y =>
        refine tri_pure fun s h => ?_
        rw [h]
        refine ⟨?_, .inr (.inl ⟨href, fun e => ?_⟩)⟩
        · unfold Sees
          rw [href]
          exact ⟨hm, hF, l, hl1, hl2, hst, heq⟩
        · unfold Stands at hst
          rw [e] at hst
          rw [hc', hcur] at hst
          cases hst.1
      | none =>
        have hend : x = true → ∀ s, from_ l (whole p s) = [] := by
          have hat : at_ s1.cur = none := by unfold at_; rw [hc', hcur]
          unfold Stands at hst
          rw [hat] at hst
          exact hst.2.2
        have hmod : (p.max + 1) % 2 ^ 64 = p.max + 1 := Nat.mod_eq_of_lt hsp.1
        have hassoc : (do
            part_cursor_close
            engine_unlock i
            modify fun c => { c with ref := none }
            open_part ps ((p.max + 1) % 2 ^ 64) none) =
          (do
            (do part_cursor_close; engine_unlock i; modify fun c => { c with ref := none })
            open_part ps ((p.max + 1) % 2 ^ 64) none) := by
          simp only [m_assoc]
        show Tri _ (do
            part_cursor_close
            engine_unlock i
            modify fun c => { c with ref := none }
            open_part ps ((p.max + 1) % 2 ^ 64) none) _ _
        rw [hassoc, hmod]
        refine tri_bind _ (tri_weaken (r_close_unlock (r := some (i, p))) (fun s h => by rw [h]; exact href) (fun _ _ h => h)
          (fun _ h => h.elim)) fun _ => ?_
        refine tri_weaken (r_open_part (lo := lo) (x := x) hp (fun hg hx e he hle => ?_) (fun j q hg => ?_)) (fun s h => h.2)
          (fun _ s h => ⟨h.1, ?_⟩) (fun _ h => h)
        rotate_left 2
        · cases hg : gte ps 0 (p.max + 1) with
          | none => exact .inl (h.2.trans hg)
          | some jq =>
            obtain ⟨j, q⟩ := jq
            have := gte_some hp.1 hg
            exact .inr (.inr ⟨j, q, h.2.trans hg, this.2.1⟩)
        · obtain ⟨q, hq, _, s, hs⟩ := nl_from he hle
          have hqm := gte_none hg q hq
          rcases hF hx q hq s e hs with e' | hlt
          · subst e'
            rw [heq hx s, hend hx s] at hs
            simp at hs
          · have := (sound_bounds (sound_of hp hq) (mem_from.1 hs).1).2
            omega
        · obtain ⟨h1, h2, h3⟩ := gte_some hp.1 hg
          have hpq : p.max < q.min := by
            by_cases hlt : p.max < q.min
            · exact hlt
            · exfalso
              have hne : p ≠ q := by intro e; subst e; omega
              have hq := sound_of hp h1
              have hall := apart hp.1
              have := hall p hm q h1 hne
              have h5 := hq.2.1
              have h6 := hsp.2.1
              omega
          have hql := (sound_of hp h1).2.1
          refine ⟨fun hx q' hq' s e he => ?_, q.min, by omega, by omega, .inr ⟨rfl, Nat.le_refl _⟩, fun _ s => ?_⟩
          · rcases hF hx q' hq' s e he with e' | hlt
            · subst e'
              rw [heq hx s, hend hx s] at he
              simp at he
            · have hb := sound_bounds (sound_of hp hq') (mem_from.1 he).1
              rcases h3 q' hq' (by omega) with e' | hlt'
              · exact .inl e'
              · exact .inr (by omega)
          · rw [from_all fun e he => ?_, from_all fun e he => ?_]
            · exact (sound_bounds (sound_of hp h1) he).1
            · have := (sound_bounds (sound_of hp h1) he).1
              omega

theorem r_engine_next {ps lo x} (hp : Proper ps) :
    Tri (fun s => At ps lo x s.cur) (engine_cursor_next ps)
      (fun _ s => Sees ps lo x s.cur) (fun s => At ps lo false s.cur) := by
  refine tri_pre fun s0 h0 => tri_weaken (r_engine_moves (r := s0.cur.ref) hp) (fun s h => ?_) (fun _ _ h => h.1) (fun _ h => h)
  rw [h]
  exact ⟨h0, rfl⟩

/-- What the cursor shows, when it shows an event. -/
theorem sees_event {ps lo x c i p e} (hp : Proper ps) (h : Sees ps lo x c) (hr : c.ref = some (i, p)) (ha : at_ c = some e) :
    lo ≤ e.id ∧ Newest p e ∧ p ∈ ps ∧ At ps (e.id + 1) x c ∧
      (x = true → ∀ e', NL ps e' → lo ≤ e'.id → e' = e ∨ e.id < e'.id) := by
  unfold Sees at h
  rw [hr] at h
  obtain ⟨hm, hF, l, hl1, hl2, hst, heq⟩ := h
  unfold Stands at hst
  rw [ha] at hst
  obtain ⟨hne, hle, hn, hmax, hpre, hall⟩ := hst
  refine ⟨by omega, hn, hm, ?_, fun hx e' he' hl' => ?_⟩
  · unfold At
    rw [hr]
    refine ⟨hm, fun hx q hq s e' he' => hF hx q hq s e' ?_, e.id + 1, Nat.le_refl _, by omega, hpre, fun _ _ => rfl⟩
    rw [mem_from] at he' ⊢
    exact ⟨he'.1, by omega⟩
  · obtain ⟨q, hq, hn', s, hs⟩ := nl_from he' hl'
    rcases hF hx q hq s e' hs with e1 | hlt
    · subst e1
      rw [heq hx s] at hs
      have := hall hx s e' hs
      by_cases h : e'.id = e.id
      · exact .inl (this.2 h hn')
      · exact .inr (by omega)
    · exact .inr (by omega)

theorem sees_none {ps lo x c i p} (h : Sees ps lo x c) (hr : c.ref = some (i, p)) (ha : at_ c = none) : At ps lo x c := by
  unfold Sees at h
  rw [hr] at h
  obtain ⟨hm, hF, l, hl1, hl2, hst, heq⟩ := h
  unfold Stands at hst
  rw [ha] at hst
  unfold At
  rw [hr]
  exact ⟨hm, hF, l, hl1, hl2, hst.2.1, heq⟩

theorem r_engine_open {ps key} (hp : Proper ps) :
    Tri (fun s => s.cur.list = [] ∧ s.cur.current = none) (engine_cursor_open ps key)
      (fun _ s => Sees ps (low key) true s.cur)
      (fun s => At ps (low key) false s.cur) := by
  have hmin : engine_cursor_open ps key = (do
      modify fun c => { c with ref := none }
      open_part ps (low key) key
      let c ← get
      match c.ref, c.current with
      | some _, none => engine_cursor_next ps
      | some _, some _ => pure ()
      | none, _ => pure ()) := by cases key <;> rfl
  rw [hmin]
  refine tri_bind (fun _ s => s.cur.list = [] ∧ s.cur.current = none) (tri_modify fun s h => h) fun _ => ?_
  refine tri_bind _ (tri_weaken (r_open_part (lo := (low key)) (x := true) hp
    (fun hg _ e he hle => ?_) (fun i p hg => ?_)) (fun _ h => h) (fun _ _ h => h.1) (fun _ h => h)) fun _ => tri_bind _ tri_get fun c => tri_pre fun s0 h0 => ?_
  · obtain ⟨q, hq, _, s, hs⟩ := nl_from he hle
    have h1 := gte_none hg q hq
    have h2 := (sound_bounds (sound_of hp hq) (mem_from.1 hs).1).2
    omega
  · obtain ⟨h1, h2, h3⟩ := gte_some hp.1 hg
    refine ⟨fun _ q hq s e he => ?_, _, Nat.le_refl _, by omega, ?_, fun _ _ => rfl⟩
    · have hb := sound_bounds (sound_of hp hq) (mem_from.1 he).1
      have hl := (mem_from.1 he).2
      rcases h3 q hq (by omega) with e' | hlt
      · exact .inl e'
      · exact .inr (by omega)
    · cases key with
      | some k => exact .inl rfl
      | none => exact .inr ⟨rfl, Nat.zero_le _⟩
  · obtain ⟨h0, hc⟩ := h0
    cases hr : c.ref with
    | none => exact tri_pure fun s h => by rw [h]; exact h0
    | some ip =>
      obtain ⟨i, p⟩ := ip
      cases hcur : c.current with
      | some y => exact tri_pure fun s h => by rw [h]; exact h0
      | none =>
        refine tri_weaken (r_engine_next (lo := (low key)) (x := true) hp) (fun s h => ?_)
          (fun _ _ h => h) (fun _ h => h)
        rw [h]
        exact sees_none h0 (by rw [hc]; exact hr) (by unfold at_; rw [hc, hcur])

theorem r_skip {ps x} (hp : Proper ps) : ∀ n lo, Tri (fun s => Sees ps lo x s.cur) (skip_deletes ps n)
    (fun _ s => Final ps lo x s.cur) (fun s => At ps lo false s.cur) := by
  intro n
  induction n with
  | zero => intro lo; exact tri_spin
  | succ n ih =>
    intro lo
    unfold skip_deletes
    refine tri_bind _ tri_get fun c => tri_pre fun s0 h0 => ?_
    obtain ⟨h0, hc⟩ := h0
    cases hr : c.ref with
    | none =>
      refine tri_pure fun s h => ?_
      rw [h]
      unfold Sees at h0
      unfold Final
      rw [hc, hr] at h0 ⊢
      exact h0
    | some ip =>
      obtain ⟨i, p⟩ := ip
      cases ha : at_ c with
      | none =>
        refine tri_bind _ (tri_weaken (r_engine_next (lo := lo) (x := x) hp) (fun s h => ?_) (fun _ _ h => h) (fun _ h => h))
          fun _ => ih lo
        rw [h]
        exact sees_none h0 (by rw [hc]; exact hr) (by rw [hc]; exact ha)
      | some e =>
        obtain ⟨h1, h2, h3, h4, h5⟩ := sees_event hp h0 (by rw [hc]; exact hr) (by rw [hc]; exact ha)
        by_cases hd : e.del = true
        · show Tri _ (if e.del = true then _ else _) _ _
          rw [if_pos hd]
          refine tri_bind _ (tri_weaken (r_engine_next (lo := e.id + 1) (x := x) hp) (fun s h => ?_) (fun _ _ h => h)
            (fun s h => at_less h (by omega))) fun _ => tri_weaken (ih (e.id + 1)) (fun _ h => h) (fun _ s h => ?_)
            (fun s h => at_less h (by omega))
          · rw [h]; exact h4
          · have hskip : x = true → ∀ e', NL ps e' → lo ≤ e'.id → e.id + 1 ≤ e'.id := by
              intro hx e' he' hl'
              rcases h5 hx e' he' hl' with e1 | hlt
              · subst e1
                rw [he'.2] at hd
                cases hd
              · exact hlt
            unfold Final at h ⊢
            split at h
            · exact ⟨h.1, fun hx e' he' hl' => h.2 hx e' he' (hskip hx e' he' hl')⟩
            · obtain ⟨e2, g1, g2, g3, g4, g5⟩ := h
              exact ⟨e2, g1, by omega, g3, g4, fun hx e' he' hl' => g5 hx e' he' (hskip hx e' he' hl')⟩
        · show Tri _ (if e.del = true then _ else _) _ _
          rw [if_neg hd]
          refine tri_pure fun s h => ?_
          rw [h]
          unfold Final
          rw [hc, hr]
          rw [hc] at h4
          exact ⟨e, ha, h1, ⟨⟨p, h3, h2⟩, by simpa using hd⟩, h4, h5⟩

/-! ### The API -/

theorem r_cursor {ps fuel key} (hp : Proper ps) :
    Tri (fun _ => True) (monotone_cursor ps fuel key)
      (fun r s => r = true → Final ps (low key) true s.cur) (fun _ => False) := by
  unfold monotone_cursor
  refine tri_bind _ (tri_attempt (Q := fun _ _ => True) (E := fun _ => True) (E' := fun _ => False)
    (t_fallible fun _ _ => trivial)) fun r => ?_
  cases r with
  | none => exact tri_pure fun s _ e => by cases e
  | some u =>
    refine tri_bind (fun _ _ => True) (tri_act fun _ _ => trivial) fun _ =>
      tri_bind (fun _ s => s.cur.list = [] ∧ s.cur.current = none) (tri_modify fun s _ => ⟨rfl, rfl⟩) fun _ => ?_
    refine tri_bind _ (tri_attempt (Q := fun _ s => Final ps (low key) true s.cur)
      (E := fun _ => True) (E' := fun _ => False) ?_) fun r => ?_
    · unfold cursor_body
      refine tri_bind (fun _ s => Sees ps (low key) true s.cur) ?_ fun _ =>
        tri_weaken (r_skip hp fuel _) (fun _ h => h) (fun _ _ h => h) (fun _ _ => trivial)
      cases key with
      | none => exact tri_weaken (r_engine_open hp) (fun _ h => h) (fun _ _ h => h) (fun _ _ => trivial)
      | some k =>
        refine tri_bind (fun _ s => s.cur.list = [] ∧ s.cur.current = none) (tri_fallible (fun _ h => h) (fun _ _ => trivial))
          fun _ => tri_bind (fun _ s => s.cur.list = [] ∧ s.cur.current = none) (tri_act fun _ h => h) fun _ => ?_
        exact tri_guarded (r_engine_open (key := some k) hp) (fun _ => tri_act fun _ h => h) (tri_act fun _ h => trivial)
    · cases r with
      | some u => exact tri_pure fun s h _ => h
      | none =>
        refine tri_bind (fun _ _ => True) ?_ fun _ => tri_pure fun s _ e => by cases e
        exact tri_weaken (tri_attempt (Q := fun _ _ => True) (E := fun _ => True) (E' := fun _ => False)
          (fun f s _ => by split <;> trivial)) (fun _ _ => trivial) (fun _ _ _ => trivial) (fun _ h => h)

theorem r_next {ps fuel lo x} (hp : Proper ps) :
    Tri (fun s => At ps lo x s.cur) (monotone_next ps fuel)
      (fun r s => match r with
        | .one => Final ps lo x s.cur ∧ s.cur.ref ≠ none
        | .zero => Final ps lo x s.cur ∧ s.cur.ref = none
        | .failed => At ps lo false s.cur) (fun _ => False) := by
  unfold monotone_next
  refine tri_bind _ (tri_attempt (Q := fun b s => Final ps lo x s.cur ∧ b = s.cur.ref.isSome)
    (E := fun s => At ps lo false s.cur) (E' := fun _ => False) ?_) fun r => ?_
  · refine tri_bind _ (r_engine_next hp) fun _ => tri_bind _ (r_skip hp fuel lo) fun _ => tri_bind _ tri_get fun c =>
      tri_pure fun s h => ⟨h.1, by rw [h.2]⟩
  · rcases r with _ | _ | _
    · exact tri_pure fun s h => h
    · refine tri_pure fun s h => ⟨h.1, ?_⟩
      cases hr : s.cur.ref with
      | none => rfl
      | some y => rw [hr] at h; cases h.2
    · refine tri_pure fun s h => ⟨h.1, fun e => ?_⟩
      rw [e] at h; cases h.2

theorem r_read {c : Cur} : Tri (fun s => s.cur = c) monotone_read
    (fun r s => s.cur = c ∧ r = (match at_ c with | some e => if e.del then none else some e | none => none))
    (fun _ => False) := by
  unfold monotone_read
  refine tri_bind _ tri_get fun d => tri_pre fun s0 h0 => ?_
  obtain ⟨h0, h1⟩ := h0
  rw [h0] at h1
  subst h1
  cases at_ c with
  | none => exact tri_pure fun s h => ⟨by rw [h]; exact h0, rfl⟩
  | some e =>
    show Tri _ (if e.del = true then _ else _) _ _
    by_cases hd : e.del = true
    · rw [if_pos hd]
      exact tri_pure fun s h => ⟨by rw [h]; exact h0, by simp [hd]⟩
    · rw [if_neg hd]
      exact tri_pure fun s h => ⟨by rw [h]; exact h0, by simp [hd]⟩

/-- A read while the cursor is in order. -/
theorem r_read_final {ps lo x} : Tri (fun s => Final ps lo x s.cur) monotone_read
    (fun r s => match r with
      | none => s.cur.ref = none ∧ Final ps lo x s.cur
      | some e => lo ≤ e.id ∧ NL ps e ∧ At ps (e.id + 1) x s.cur ∧
          (x = true → ∀ e', NL ps e' → lo ≤ e'.id → e' = e ∨ e.id < e'.id)) (fun _ => False) := by
  refine tri_pre fun s0 h0 => tri_weaken (r_read (c := s0.cur)) (fun s h => by rw [h]) (fun r s h => ?_) (fun _ h => h)
  obtain ⟨h1, h2⟩ := h
  subst h2
  rw [h1]
  have h0' := h0
  unfold Final at h0
  split at h0
  · rename_i hr
    have : at_ s0.cur = none := by unfold at_; rw [h0.1]
    rw [this]
    exact ⟨hr, h0'⟩
  · obtain ⟨e, g1, g2, g3, g4, g5⟩ := h0
    rw [g1]
    simp only [g3.2]
    exact ⟨g2, g3, g4, g5⟩

/-- Before a call: after a success that was not yet read, or not. -/
def Inv (ps : List Part) (lo : Nat) : Bool → Cur → Prop
  | true, c => Final ps lo false c
  | false, c => At ps lo false c

theorem inv_at {ps lo g c} (h : Inv ps lo g c) : At ps lo false c := by
  cases g with
  | false => exact h
  | true =>
    have h : Final ps lo false c := h
    unfold Final at h
    split at h
    · rename_i hr
      unfold At
      rw [hr]
      exact h
    · obtain ⟨e, g1, g2, g3, g4, g5⟩ := h
      exact at_less g4 (by omega)

theorem r_calls {ps fuel} (hp : Proper ps) : ∀ xs g lo, Tri (fun s => Inv ps lo g s.cur) (calls ps fuel xs)
    (fun rs _ => (∀ e ∈ given g rs, lo ≤ e.id ∧ NL ps e) ∧ Ascending (given g rs)) (fun _ => False) := by
  intro xs
  induction xs with
  | nil =>
    intro g lo
    refine tri_pure fun s _ => ?_
    cases g <;> exact ⟨fun e he => by simp [given] at he, List.Pairwise.nil⟩
  | cons y xs ih =>
    intro g lo
    unfold calls
    cases y with
    | next =>
      refine tri_bind (fun r s => match r with
          | .next .one => Inv ps lo true s.cur
          | .next _ => Inv ps lo false s.cur
          | .read _ => False) ?_ fun r => ?_
      · refine tri_bind _ (tri_weaken (r_next (fuel := fuel) (lo := lo) (x := false) hp) (fun _ h => inv_at h) (fun _ _ h => h) (fun _ h => h))
          fun r => tri_pure fun s h => ?_
        cases r with
        | one => exact h.1
        | zero => exact inv_at (g := true) h.1
        | failed => exact h
      · cases r with
        | read _ => exact fun f s h => h.elim
        | next r =>
          cases r with
          | one =>
            refine tri_bind _ (ih true lo) fun rs => tri_pure fun s h => ?_
            cases g <;> exact h
          | zero =>
            refine tri_bind _ (ih false lo) fun rs => tri_pure fun s h => ?_
            cases g <;> exact h
          | failed =>
            refine tri_bind _ (ih false lo) fun rs => tri_pure fun s h => ?_
            cases g <;> exact h
    | read =>
      cases g with
      | false =>
        refine tri_bind (fun r s => (∃ e, r = .read e) ∧ Inv ps lo false s.cur) ?_ fun r => ?_
        · exact tri_bind _ t_read fun r => tri_pure fun s h => ⟨⟨r, rfl⟩, h⟩
        · refine tri_pre fun s0 h0 => ?_
          obtain ⟨⟨e, he⟩, h0⟩ := h0
          subst he
          refine tri_bind _ (tri_weaken (ih false lo) (fun s h => by rw [h]; exact h0) (fun _ _ h => h) (fun _ h => h))
            fun rs => tri_pure fun s h => ?_
          cases e <;> exact h
      | true =>
        refine tri_bind (fun r s => match r with
            | .read none => Inv ps lo false s.cur
            | .read (some e) => lo ≤ e.id ∧ NL ps e ∧ Inv ps (e.id + 1) false s.cur
            | .next _ => False) ?_ fun r => ?_
        · refine tri_bind _ (tri_weaken (r_read_final (ps := ps) (lo := lo) (x := false)) (fun _ h => h) (fun _ _ h => h) (fun _ h => h))
            fun r => tri_pure fun s h => ?_
          cases r with
          | none => exact inv_at (g := true) h.2
          | some e => exact ⟨h.1, h.2.1, h.2.2.1⟩
        · cases r with
          | next _ => exact fun f s h => h.elim
          | read r =>
            cases r with
            | none => exact tri_bind _ (ih false lo) fun rs => tri_pure fun s h => h
            | some e =>
              refine tri_pre fun s0 h0 => ?_
              refine tri_bind _ (tri_weaken (ih false (e.id + 1)) (fun s h => by rw [h]; exact h0.2.2) (fun _ _ h => h)
                (fun _ h => h)) fun rs => tri_pure fun s h => ?_
              refine ⟨fun e' he' => ?_, ?_⟩
              · rcases List.mem_cons.1 he' with e1 | he'
                · subst e1; exact ⟨h0.1, h0.2.1⟩
                · exact ⟨by have := (h.1 e' he').1; omega, (h.1 e' he').2⟩
              · exact List.pairwise_cons.2 ⟨fun e' he' => (h.1 e' he').1, h.2⟩

/-- Reading to the end: nothing is left out. -/
def Whole (ps : List Part) (lo : Nat) (g : Bool) (rs : List Reply) : Prop :=
  .next .failed ∉ rs → .next .zero ∈ rs → ∀ e, NL ps e → lo ≤ e.id → e ∈ given g rs

theorem r_thorough {ps fuel} (hp : Proper ps) : ∀ n lo g, Tri (fun s => At ps lo true s.cur) (calls ps fuel (thorough n))
    (fun rs _ => Whole ps lo g rs) (fun _ => False) := by
  intro n
  induction n with
  | zero => intro lo g; exact tri_pure fun s _ _ h => by simp at h
  | succ n ih =>
    intro lo g
    show Tri _ (do let r ← call ps fuel .next; let rs ← (do let r ← call ps fuel .read; let rs ← calls ps fuel (thorough n); pure (r :: rs)); pure (r :: rs)) _ _
    have hany : ∀ P : St → Prop, Tri P (do let r ← call ps fuel .read; let rs ← calls ps fuel (thorough n); pure (r :: rs))
        (fun _ _ => True) (fun _ => False) := by
      intro P f s _
      have := (t_calls_any (ps := ps) (fuel := fuel) (.read :: thorough n)) f s trivial
      exact this
    refine tri_bind (fun r s => match r with
        | .next .one => Final ps lo true s.cur ∧ s.cur.ref ≠ none
        | .next .zero => Final ps lo true s.cur ∧ s.cur.ref = none
        | .next .failed => True
        | .read _ => False) ?_ fun r => ?_
    · refine tri_bind _ (r_next (fuel := fuel) (lo := lo) (x := true) hp) fun r => tri_pure fun s h => ?_
      cases r with
      | one => exact h
      | zero => exact h
      | failed => trivial
    · cases r with
      | read _ => exact fun f s h => h.elim
      | next r =>
        cases r with
        | failed =>
          exact tri_bind _ (hany _) fun rs => tri_pure fun s _ hf => absurd (List.mem_cons_self) hf
        | zero =>
          refine tri_pre fun s0 h0 => tri_bind _ (hany _) fun rs => tri_pure fun s _ _ _ e he hle => ?_
          obtain ⟨h0, hr⟩ := h0
          unfold Final at h0
          rw [hr] at h0
          exact (h0.2 rfl e he hle).elim
        | one =>
          refine tri_bind (fun rs _ => ∃ e rs', rs = .read (some e) :: rs' ∧ Whole ps (e.id + 1) false rs' ∧
            ∀ e', NL ps e' → lo ≤ e'.id → e' = e ∨ e.id < e'.id) ?_ fun rs => tri_pure fun s h => ?_
          · refine tri_bind (fun r s => ∃ e, r = .read (some e) ∧ At ps (e.id + 1) true s.cur ∧
              ∀ e', NL ps e' → lo ≤ e'.id → e' = e ∨ e.id < e'.id) ?_ fun r => ?_
            · refine tri_pre fun s0 h0 => ?_
              refine tri_bind (fun r s => ∃ e, r = some e ∧ At ps (e.id + 1) true s.cur ∧
                ∀ e', NL ps e' → lo ≤ e'.id → e' = e ∨ e.id < e'.id) ?_ fun r => tri_pure fun s h => ?_
              · refine tri_weaken (r_read (c := s0.cur)) (fun s h => by rw [h]) (fun r s h => ?_) (fun _ h => h)
                obtain ⟨h0, hr⟩ := h0
                unfold Final at h0
                split at h0
                · rename_i hr'; exact absurd hr' hr
                · obtain ⟨e, g1, g2, g3, g4, g5⟩ := h0
                  rw [h.2, h.1, g1]
                  exact ⟨e, by simp [g3.2], g4, g5 rfl⟩
              · obtain ⟨e, h1, h2⟩ := h
                exact ⟨e, by rw [h1], h2⟩
            · refine tri_pre fun s0 h0 => ?_
              obtain ⟨e, h1, h2, h3⟩ := h0
              refine tri_bind _ (tri_weaken (ih (e.id + 1) false) (fun s h => by rw [h]; exact h2) (fun _ _ h => h)
                (fun _ h => h)) fun rs => tri_pure fun s h => ⟨e, rs, by rw [h1], h, h3⟩
          · obtain ⟨e, rs', h1, h2, h3⟩ := h
            subst h1
            intro hf hz e' he' hle
            have hg : given g (.next .one :: .read (some e) :: rs') = e :: given false rs' := by cases g <;> rfl
            rw [hg]
            rcases h3 e' he' hle with e1 | hlt
            · subst e1; exact List.mem_cons_self
            · refine List.mem_cons_of_mem _ (h2 (fun h => hf (by simp [h])) ?_ e' he' hlt)
              simpa using hz

theorem r_using {ps fuel key xs} (hp : Proper ps) : Tri (fun _ => True) (using_ ps fuel key xs)
    (fun r _ => ∀ rs, r = some rs → (∀ e ∈ given true rs, Live ps key e) ∧ Ascending (given true rs)) (fun _ => False) := by
  unfold using_
  refine tri_bind _ (r_cursor hp) fun r => ?_
  cases r with
  | false => exact tri_pure fun s _ rs e => by cases e
  | true =>
    refine tri_bind _ (tri_weaken (r_calls hp xs true (low key))
      (fun s h => final_less (h rfl)) (fun _ _ h => h) (fun _ h => h)) fun rs => tri_pure fun s h rs' e => ?_
    injection e with e
    subst e
    refine ⟨fun e he => ?_, h.2⟩
    obtain ⟨h1, h2⟩ := h.1 e he
    refine ⟨h2.1, h2.2, fun k hk => ?_⟩
    subst hk
    exact h1

theorem r_using_all {ps fuel key n} (hp : Proper ps) : Tri (fun _ => True) (using_ ps fuel key (.read :: thorough n))
    (fun r _ => ∀ rs, r = some rs → .next .failed ∉ rs → .next .zero ∈ rs → ∀ e, Live ps key e → e ∈ given true rs)
    (fun _ => False) := by
  unfold using_
  refine tri_bind _ (r_cursor hp) fun r => ?_
  cases r with
  | false => exact tri_pure fun s _ rs e => by cases e
  | true =>
    refine tri_bind (fun rs _ => Whole ps (low key) true rs) ?_ fun rs => tri_pure fun s h rs' e => ?_
    · unfold calls
      refine tri_bind (fun r s => (r = .read none ∧ s.cur.ref = none ∧ Final ps (low key) true s.cur) ∨
          ∃ e, r = .read (some e) ∧ At ps (e.id + 1) true s.cur ∧
          ∀ e', NL ps e' → (low key) ≤ e'.id → e' = e ∨ e.id < e'.id) ?_ fun r => ?_
      · refine tri_bind _ (tri_weaken (r_read_final (ps := ps) (lo := low key) (x := true))
          (fun s h => h rfl) (fun _ _ h => h) (fun _ h => h)) fun r => tri_pure fun s h => ?_
        cases r with
        | none => exact .inl ⟨rfl, h⟩
        | some e => exact .inr ⟨e, rfl, h.2.2.1, h.2.2.2 rfl⟩
      · refine tri_pre fun s0 h0 => ?_
        rcases h0 with ⟨h1, h2, h3⟩ | ⟨e, h1, h2, h3⟩
        · unfold Final at h3
          rw [h2] at h3
          refine tri_bind (fun _ _ => True) (fun f s _ => t_calls_any (ps := ps) (fuel := fuel) (thorough n) f s trivial)
            fun rs => tri_pure fun s _ _ _ e he hle => (h3.2 rfl e he hle).elim
        · refine tri_bind _ (tri_weaken (r_thorough hp n (e.id + 1) false) (fun s h => by rw [h]; exact h2) (fun _ _ h => h)
            (fun _ h => h)) fun rs => tri_pure fun s h hf hz e' he' hle => ?_
          subst h1
          show e' ∈ e :: given false rs
          rcases h3 e' he' hle with e1 | hlt
          · subst e1; exact List.mem_cons_self
          · refine List.mem_cons_of_mem _ (h (fun h => hf (by simp [h])) (by simpa using hz) e' he' hlt)
    · injection e with e
      subst e
      intro hf hz e he
      refine h hf hz e ⟨he.1, he.2.1⟩ ?_
      cases key with
      | none => exact Nat.zero_le _
      | some k => exact he.2.2 k rfl

end Verif.C78
