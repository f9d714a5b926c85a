import Verif.Proofs.C76Mem
import Verif.Proofs.C76Lex

/-! C76: a parser with memory against the same parser without. -/
namespace Verif.C76
open CmdMem Lex Parse

section
variable (fails : Nat → Bool) (h0 : Blocks)

/-- Live are the blocks under guards, `x` and those of before. -/
def At (x : Blocks) (gs : List Owned) (s : State) : Prop :=
  s.guards = gs.map Owned.guard ∧ Holds s.mem (x ++ (allOwn gs ++ h0)) ∧ s.mem.fails = fails

/-- An allocation failed, and everything was given back. -/
def Failed {α : Type} (o : Out α) : Prop :=
  (∃ n, fails n = true) ∧ ∃ e m, o = .thrown e m ∧ Holds m h0

/-- The end of a parser with memory against the end without. -/
def Rel {α β : Type} (Q : α → β → State → Prop) (r : Res (β × Lex)) (o : Out α) : Prop :=
  Failed fails h0 o ∨
  match r with
  | .ok (b, l) => ∃ a s, o = .ok a s ∧ s.lex = l ∧ Q a b s
  | .err e => ∃ m, o = .thrown e m ∧ Holds m h0
  | .abort _ => True
  | .ub _ => True

def Sim {α β : Type} (p : Prog β) (x : M α) (P : State → Prop) (Q : α → β → State → Prop) : Prop :=
  ∀ s, J s.lex → P s → Rel fails h0 Q (p.run s.lex) (x s)

/-- Code that only uses memory. -/
def Op {α : Type} (x : M α) (P : State → Prop) (Q : α → State → Prop) : Prop :=
  ∀ s, P s → Failed fails h0 (x s) ∨ ∃ a s', x s = .ok a s' ∧ s'.lex = s.lex ∧ Q a s'
end

variable {fails : Nat → Bool} {h0 : Blocks}

theorem throw_ok {α : Type} {gs : List Owned} {s : State} (h : At fails h0 [] gs s) (e : String) :
    ∃ m, (M.throw_ e s : Out α) = .thrown e m ∧ Holds m h0 := by
  obtain ⟨h1, h2, _⟩ := h
  obtain ⟨m, e1, h3, _⟩ := run_guards_ok gs h2
  exact ⟨m, by rw [M.throw_, h1, e1], h3⟩

theorem Sim.throw {α β : Type} {gs : List Owned} {e : String} {Q : α → β → State → Prop} :
    Sim fails h0 (.fail e) (M.throw_ e) (At fails h0 [] gs) Q := fun _ _ h => .inr (throw_ok h e)

theorem Sim.ret {α β : Type} {a : α} {b : β} {P : State → Prop} {Q : α → β → State → Prop} (h : ∀ s, P s → Q a b s) :
    Sim fails h0 (.ret b) (M.ret a) P Q := fun s _ hs => .inr ⟨a, s, rfl, rfl, h s hs⟩

theorem run_bind {α β : Type} (p : Prog α) (f : α → Prog β) : ∀ l,
    (p.bind f).run l = (p.run l).bind fun r => (f r.1).run r.2 := by
  induction p with
  | ret a => intro l; rfl
  | fail m => intro l; rfl
  | next k ih =>
    intro l
    simp only [Prog.bind, Prog.run]
    cases Lex.next l <;> simp [Res.bind, ih]
  | lexIf p k ih =>
    intro l
    simp only [Prog.bind, Prog.run]
    cases Lex.lexIf p l <;> simp [Res.bind, ih]
  | lexIfName k ih =>
    intro l
    simp only [Prog.bind, Prog.run]
    cases Lex.lexIfName l <;> simp [Res.bind, ih]

theorem Failed.bind {α β : Type} {x : M α} {g : α → M β} {s : State} (h : Failed fails h0 (x s)) :
    Failed fails h0 (x.bind g s) := by
  obtain ⟨h1, e, m, h2, h3⟩ := h
  exact ⟨h1, e, m, by rw [M.bind, h2], h3⟩

theorem Sim.bind {α β α' β' : Type} {p : Prog β} {x : M α} {f : β → Prog β'} {g : α → M α'} {P : State → Prop}
    {Q : α → β → State → Prop} {R : α' → β' → State → Prop} (h : Sim fails h0 p x P Q)
    (h2 : ∀ a b, Sim fails h0 (f b) (g a) (Q a b) R) : Sim fails h0 (p.bind f) (x.bind g) P R := by
  intro s hj hs
  rcases h s hj hs with hf | hr
  · exact .inl hf.bind
  · rw [run_bind]
    cases he : p.run s.lex with
    | ok r =>
      obtain ⟨b, l⟩ := r
      rw [he] at hr
      obtain ⟨a, s', e, rfl, hq⟩ := hr
      have := h2 a b s' (run_J p _ _ _ hj he) hq
      simpa only [M.bind, e, Res.bind] using this
    | err e =>
      rw [he] at hr
      obtain ⟨m, e1, h3⟩ := hr
      exact .inr ⟨m, by rw [M.bind, e1], h3⟩
    | abort w => exact .inr trivial
    | ub w => exact .inr trivial

theorem Sim.op {α α' β : Type} {x : M α} {p : Prog β} {g : α → M α'} {P : State → Prop} {Q : α → State → Prop}
    {R : α' → β → State → Prop} (h : Op fails h0 x P Q) (h2 : ∀ a, Sim fails h0 p (g a) (Q a) R) :
    Sim fails h0 p (x.bind g) P R := by
  intro s hj hs
  rcases h s hs with hf | ⟨a, s', e, hl, hq⟩
  · exact .inl hf.bind
  · have := h2 a s' (hl ▸ hj) hq
    rw [hl] at this
    simpa only [M.bind, e] using this

theorem Sim.mono {α β : Type} {p : Prog β} {x : M α} {P P' : State → Prop} {Q Q' : α → β → State → Prop}
    (h : Sim fails h0 p x P Q) (hP : ∀ s, P' s → P s) (hQ : ∀ a b s, Q a b s → Q' a b s) : Sim fails h0 p x P' Q' := by
  intro s hj hs
  rcases h s hj (hP s hs) with hf | hr
  · exact .inl hf
  · refine .inr ?_
    cases he : p.run s.lex with
    | ok r =>
      rw [he] at hr
      obtain ⟨a, s', e, hl, hq⟩ := hr
      exact ⟨a, s', e, hl, hQ _ _ _ hq⟩
    | err e => rw [he] at hr; exact hr
    | abort w => trivial
    | ub w => trivial

/-- A state that is described by more than one predicate. -/
theorem Sim.pre {α β : Type} {ι : Sort _} {p : Prog β} {x : M α} {P : ι → State → Prop} {Q : α → β → State → Prop}
    (h : ∀ i, Sim fails h0 p x (P i) Q) : Sim fails h0 p x (fun s => ∃ i, P i s) Q :=
  fun s hj ⟨i, hi⟩ => h i s hj hi

theorem Sim.fact {α β : Type} {F : Prop} {p : Prog β} {x : M α} {P : State → Prop} {Q : α → β → State → Prop}
    (h : F → Sim fails h0 p x P Q) : Sim fails h0 p x (fun s => F ∧ P s) Q :=
  fun s hj ⟨i, hi⟩ => h i s hj hi

theorem lexer_ok {α β : Type} {f : Lex → Res (α × Lex)} {g : α → M β} {k : α → Prog β} {gs : List Owned}
    {Q : β → β → State → Prop} {s : State} (h : At fails h0 [] gs s)
    (ih : ∀ a l, f s.lex = .ok (a, l) → Rel fails h0 Q ((k a).run l) (g a { s with lex := l })) :
    Rel fails h0 Q ((f s.lex).bind fun r => (k r.1).run r.2) ((M.lexer f).bind g s) := by
  cases he : f s.lex with
  | ok r =>
    obtain ⟨a, l⟩ := r
    have := ih a l he
    simpa only [M.bind, M.lexer, he, Res.bind] using this
  | err e =>
    obtain ⟨m, e1, h3⟩ := throw_ok (α := α) h e
    exact .inr ⟨m, by simp only [M.bind, M.lexer, he, e1], h3⟩
  | abort w => exact .inr trivial
  | ub w => exact .inr trivial

theorem Sim.lift {β : Type} (p : Prog β) (gs : List Owned) :
    Sim fails h0 p (M.lift p) (At fails h0 [] gs) (fun a b s => a = b ∧ At fails h0 [] gs s) := by
  induction p with
  | ret a => exact Sim.ret fun s hs => ⟨rfl, hs⟩
  | fail m => exact Sim.throw
  | next k ih =>
    intro s hj hs
    exact lexer_ok hs fun a l e => ih a _ (next_filled hj e).2 hs
  | lexIf q k ih =>
    intro s hj hs
    exact lexer_ok hs fun a l e => ih a _ (lexIf_filled hj e).2 hs
  | lexIfName k ih =>
    intro s hj hs
    exact lexer_ok hs fun a l e => ih a _ (lexIfName_filled hj e).2 hs

/-- A part without memory, and what is known of its result. -/
theorem Sim.lift_bind {α' β β' : Type} {p : Prog β} {gs : List Owned} {f : β → Prog β'} {g : β → M α'}
    {R : α' → β' → State → Prop} (G : β → Prop) (hG : ∀ l b l', J l → p.run l = .ok (b, l') → G b)
    (h : ∀ b, G b → Sim fails h0 (f b) (g b) (At fails h0 [] gs) R) :
    Sim fails h0 (p.bind f) ((M.lift p).bind g) (At fails h0 [] gs) R := by
  refine Sim.bind (Q := fun a b s => (a = b ∧ G b) ∧ At fails h0 [] gs s) ?_ ?_
  · intro s hj hs
    rcases Sim.lift p gs s hj hs with hf | hr
    · exact .inl hf
    · refine .inr ?_
      cases he : p.run s.lex with
      | ok r =>
        rw [he] at hr
        obtain ⟨a, s', e, hl, hq, ha⟩ := hr
        exact ⟨a, s', e, hl, ⟨hq, hG _ _ _ hj he⟩, ha⟩
      | err e => rw [he] at hr; exact hr
      | abort w => trivial
      | ub w => trivial
  · intro a b
    refine Sim.fact ?_
    rintro ⟨rfl, hb⟩
    exact h a hb

theorem Sim.lift_then {α' β β' : Type} {p : Prog β} {gs : List Owned} {f : β → Prog β'} {g : β → M α'}
    {R : α' → β' → State → Prop} (h : ∀ b, Sim fails h0 (f b) (g b) (At fails h0 [] gs) R) :
    Sim fails h0 (p.bind f) ((M.lift p).bind g) (At fails h0 [] gs) R :=
  Sim.lift_bind (fun _ => True) (fun _ _ _ _ _ => trivial) fun b _ => h b

/-! Operations on memory. -/

theorem op_malloc {gs : List Owned} (b : Block) :
    Op fails h0 (M.malloc b) (At fails h0 [] gs) (fun p => At fails h0 [(p, b)] gs) := by
  rintro s ⟨h1, h2, h3⟩
  unfold M.malloc
  dsimp only
  split
  · rename_i hf
    obtain ⟨m, e1, h4⟩ := throw_ok (α := Ptr) (s := { s with mem := { s.mem with next := s.mem.next + 1 } })
      ⟨h1, h2.tick, h3⟩ "malloc"
    exact .inl ⟨⟨_, h3 ▸ hf⟩, _, _, e1, h4⟩
  · exact .inr ⟨_, _, rfl, rfl, h1, h2.malloc b, h3⟩

theorem op_guard {gs : List Owned} (o : Owned) :
    Op fails h0 (M.guard o.guard) (At fails h0 o.blocks gs) (fun _ => At fails h0 [] (o :: gs)) := by
  rintro s ⟨h1, h2, h3⟩
  refine .inr ⟨_, _, rfl, rfl, by rw [List.map_cons, h1], ?_, h3⟩
  rw [allOwn, List.nil_append, List.append_assoc]
  exact h2

theorem op_unguard {gs : List Owned} (o : Owned) :
    Op fails h0 M.unguard (At fails h0 [] (o :: gs)) (fun _ => At fails h0 o.blocks gs) := by
  rintro s ⟨h1, h2, h3⟩
  rw [allOwn, List.nil_append, List.append_assoc] at h2
  refine .inr ⟨(), { s with guards := gs.map Owned.guard }, ?_, rfl, rfl, h2, h3⟩
  rw [M.unguard, h1]
  rfl

theorem Op.bind {α β : Type} {x : M α} {g : α → M β} {P : State → Prop} {Q : α → State → Prop} {R : β → State → Prop}
    (h : Op fails h0 x P Q) (h2 : ∀ a, Op fails h0 (g a) (Q a) R) : Op fails h0 (x.bind g) P R := by
  intro s hs
  rcases h s hs with hf | ⟨a, s', e, hl, hq⟩
  · exact .inl hf.bind
  · rcases h2 a s' hq with hf | ⟨b, s2, e2, hl2, hq2⟩
    · exact .inl (by simpa only [M.bind, e] using hf)
    · exact .inr ⟨b, s2, by simp only [M.bind, e, e2], hl2.trans hl, hq2⟩

theorem Op.ret {α : Type} {a : α} {P : State → Prop} {Q : α → State → Prop} (h : ∀ s, P s → Q a s) :
    Op fails h0 (M.ret a) P Q := fun s hs => .inr ⟨a, s, rfl, rfl, h s hs⟩

theorem op_mem {f : Mem → Res Mem} {P : State → Prop} {Q : Unit → State → Prop}
    (h : ∀ s, P s → ∃ m, f s.mem = .ok m ∧ Q () { s with mem := m }) : Op fails h0 (M.mem f) P Q := by
  intro s hs
  obtain ⟨m, e, hq⟩ := h s hs
  exact .inr ⟨(), { s with mem := m }, by simp only [M.mem, e], rfl, hq⟩

/-- Where a config is among the guarded blocks. -/
structure Holder (c : Ptr) (mk : List (Option Ptr) → List Owned) (rest : Blocks) : Prop where
  perm : ∀ strs, (allOwn (mk strs)).Perm (cfgOwn c strs ++ rest)
  guards : ∀ a b, (mk a).map Owned.guard = (mk b).map Owned.guard

variable {c : Ptr} {mk : List (Option Ptr) → List Owned} {rest : Blocks}

theorem Holder.holds (h : Holder c mk rest) {m : Mem} {x : Blocks} {strs : List (Option Ptr)} :
    Holds m (x ++ (allOwn (mk strs) ++ h0)) ↔ Holds m ((c, .config strs) :: (strOwn strs ++ (x ++ (rest ++ h0)))) := by
  have p : (x ++ (allOwn (mk strs) ++ h0)).Perm ((c, .config strs) :: (strOwn strs ++ (x ++ (rest ++ h0)))) := by
    refine (((h.perm strs).append_right h0).append_left x).trans ?_
    rw [List.perm_iff_count]
    intro a
    simp only [cfgOwn, List.count_append, List.count_cons, List.cons_append]
    omega
  exact ⟨fun g => g.reorder p, fun g => g.reorder p.symm⟩

theorem strOwn_set (strs : List (Option Ptr)) : ∀ (i : Nat) (p : Ptr), strs[i]? = some none →
    (strOwn (strs.set i (some p))).Perm ((p, .chars) :: strOwn strs) := by
  induction strs with
  | nil => intro i p h; simp at h
  | cons o strs ih =>
    intro i p h
    cases i with
    | zero =>
      simp only [List.getElem?_cons_zero, Option.some.injEq] at h
      subst h
      exact List.Perm.refl _
    | succ i =>
      simp only [List.getElem?_cons_succ] at h
      have := ih i p h
      cases o with
      | none => exact this
      | some q => exact (this.cons (q, .chars)).trans (List.Perm.swap ..)

theorem op_strsOf (h : Holder c mk rest) (x : Blocks) (strs : List (Option Ptr)) :
    Op fails h0 (strsOf c) (At fails h0 x (mk strs)) (fun r s => r = strs ∧ At fails h0 x (mk strs) s) := by
  intro s hs
  have := (h.holds.1 hs.2.1).get
  exact .inr ⟨strs, s, by simp only [strsOf, M.bind, M.read, this]; rfl, rfl, rfl, hs⟩

theorem op_str_free (h : Holder c mk rest) {strs : List (Option Ptr)} {i : Nat} (hi : i < strs.length) :
    Op fails h0 (str_free c i) (At fails h0 [] (mk strs)) (fun _ => At fails h0 [] (mk (strs.set i none))) := by
  refine Op.bind (op_strsOf h [] strs) ?_
  intro r s hs
  obtain ⟨rfl, hs⟩ := hs
  revert s
  cases hr : r[i]? with
  | none => rw [List.getElem?_eq_none_iff] at hr; omega
  | some o =>
    cases o with
    | none =>
      have e : r.set i none = r := by
        apply List.ext_getElem?
        intro j
        rw [List.getElem?_set]
        split
        · rename_i hj; subst hj; rw [hr]
        · rfl
      rw [e]
      exact fun s hs => .inr ⟨(), s, rfl, rfl, hs⟩
    | some p =>
      have e : (r.set i none).set i (some p) = r := by
        apply List.ext_getElem?
        intro j
        rw [List.set_set, List.getElem?_set]
        split
        · rename_i hj; subst hj; rw [hr]
        · rfl
      have hp := strOwn_set (r.set i none) i p (by rw [List.getElem?_set, if_pos rfl, if_pos hi])
      rw [e] at hp
      refine Op.bind (Q := fun _ s => s.guards = (mk r).map Owned.guard ∧ Holds s.mem ((c, .config r) ::
        (strOwn (r.set i none) ++ (rest ++ h0))) ∧ s.mem.fails = fails) (op_mem ?_) fun _ => op_mem ?_
      · rintro s ⟨h1, h2, h3⟩
        have g := (h.holds.1 h2).reorder (l' := (p, .chars) :: (c, .config r) :: (strOwn (r.set i none) ++ (rest ++ h0))) (by
          refine ((hp.append_right _).cons _).trans ?_
          exact List.Perm.swap ..)
        obtain ⟨m, e1, g1, g2⟩ := g.free
        exact ⟨m, e1, h1, g1, g2.2.trans h3⟩
      · rintro s ⟨h1, h2, h3⟩
        obtain ⟨m, e1, g1, g2⟩ := h2.put (.config (r.set i none))
        exact ⟨m, e1, h1.trans (h.guards _ _), h.holds.2 g1, g2.2.trans h3⟩

theorem op_str_strndup (h : Holder c mk rest) {strs : List (Option Ptr)} {i : Nat} (hi : strs[i]? = some none) :
    Op fails h0 (str_strndup c i) (At fails h0 [] (mk strs)) (fun _ s => ∃ p, At fails h0 [] (mk (strs.set i (some p))) s) := by
  refine Op.bind (op_malloc _) fun p => Op.bind (op_strsOf h _ strs) fun r s hs => ?_
  obtain ⟨rfl, hs⟩ := hs
  revert s
  have hl : i < r.length := by
    rcases Nat.lt_or_ge i r.length with g | g
    · exact g
    · rw [List.getElem?_eq_none_iff.2 g] at hi; cases hi
  rw [if_pos hl]
  refine op_mem ?_
  rintro s ⟨h1, h2, h3⟩
  obtain ⟨m, e1, g1, g2⟩ := (h.holds.1 h2).put (.config (r.set i (some p)))
  refine ⟨m, e1, p, h1.trans (h.guards _ _), h.holds.2 (g1.reorder (.cons _ ?_)), g2.2.trans h3⟩
  refine List.perm_middle.trans ?_
  exact (strOwn_set r i p hi).symm.append_right _

theorem op_set_str (h : Holder c mk rest) {strs : List (Option Ptr)} {i : Nat} (hi : i < strs.length) :
    Op fails h0 (set_str c i) (At fails h0 [] (mk strs)) (fun _ s => ∃ p, At fails h0 [] (mk (strs.set i (some p))) s) := by
  refine Op.bind (op_str_free h hi) fun _ => ?_
  have := op_str_strndup (fails := fails) (h0 := h0) h (strs := strs.set i none) (i := i)
    (by rw [List.getElem?_set, if_pos rfl, if_pos hi])
  simpa only [List.set_set] using this

theorem holder_cmd (k c : Ptr) : Holder c (fun strs => [.cmd k (.config (some (c, strs)))]) [(k, .cmd .config (some c) [])] := by
  refine ⟨fun strs => ?_, fun a b => rfl⟩
  simp only [allOwn, Owned.blocks, cmdOwn, Shape.block, Shape.rest, List.append_nil]
  exact (List.perm_append_comm (l₁ := [_]))

theorem holder_tier (c : Ptr) (gs : List Owned) : Holder c (fun strs => .tier c strs :: gs) (allOwn gs) :=
  ⟨fun _ => List.Perm.refl _, fun _ _ => rfl⟩

/-- `cmd->config = ...`. -/
theorem op_set_config {k c : Ptr} {strs : List (Option Ptr)} :
    Op fails h0 (set_config k c) (At fails h0 (cfgOwn c strs) [.cmd k (.config none)])
      (fun _ => At fails h0 [] [.cmd k (.config (some (c, strs)))]) := by
  rintro s ⟨h1, h2, h3⟩
  have g : Holds s.mem ((k, .cmd .config none []) :: (cfgOwn c strs ++ h0)) := h2.reorder List.perm_middle
  obtain ⟨m, e1, g1, g2⟩ := g.put (.cmd .config (some c) [])
  refine .inr ⟨(), { s with mem := m }, ?_, rfl, h1, ?_, g2.2.trans h3⟩
  · simp only [set_config, M.bind, M.read, g.get, M.mem, e1]
  · simp only [allOwn, Owned.blocks, cmdOwn, Shape.block, Shape.rest, List.append_nil, List.nil_append]
    exact g1

theorem op_add_tier {k c : Ptr} {strs : List (Option Ptr)} {ts : List (Ptr × List (Option Ptr))} :
    Op fails h0 (add k c) (At fails h0 (cfgOwn c strs) [.cmd k (.pipeline ts)])
      (fun _ => At fails h0 [] [.cmd k (.pipeline (ts ++ [(c, strs)]))]) := by
  have ht : ∀ ts, tiersOwn (ts ++ [(c, strs)]) = tiersOwn ts ++ cfgOwn c strs := by
    intro ts
    induction ts with
    | nil => simp [tiersOwn]
    | cons t ts ih => rw [List.cons_append, tiersOwn, ih, tiersOwn, List.append_assoc]
  rintro s ⟨h1, h2, h3⟩
  have g : Holds s.mem ((k, .cmd .pipeline none (ts.map (·.1))) :: (tiersOwn (ts ++ [(c, strs)]) ++ h0)) := by
    refine h2.reorder ?_
    rw [ht, List.perm_iff_count]
    intro a
    simp only [allOwn, Owned.blocks, cmdOwn, Shape.block, Shape.rest, List.count_append, List.count_cons,
      List.cons_append, List.append_nil]
    omega
  obtain ⟨m, e1, g1, g2⟩ := g.put (.cmd .pipeline none (ts.map (·.1) ++ [c]))
  refine .inr ⟨(), { s with mem := m }, ?_, rfl, h1, ?_, g2.2.trans h3⟩
  · simp only [add, M.bind, M.read, g.get, M.mem, e1]
  · simp only [allOwn, Owned.blocks, cmdOwn, Shape.block, Shape.rest, List.append_nil, List.nil_append, List.map_append,
      List.map_cons, List.map_nil]
    exact g1

theorem op_add_op {k p : Ptr} {ops : List Ptr} :
    Op fails h0 (add k p) (At fails h0 [(p, .op)] [.cmd k (.show ops)])
      (fun _ => At fails h0 [] [.cmd k (.show (ops ++ [p]))]) := by
  rintro s ⟨h1, h2, h3⟩
  have g : Holds s.mem ((k, .cmd .show none ops) :: ((ops ++ [p]).map (fun p => (p, Block.op)) ++ h0)) := by
    refine h2.reorder ?_
    rw [List.perm_iff_count]
    intro a
    simp only [allOwn, Owned.blocks, cmdOwn, Shape.block, Shape.rest, List.count_append, List.count_cons,
      List.cons_append, List.append_nil, List.map_append, List.map_cons, List.map_nil, List.nil_append, List.count_nil]
    omega
  obtain ⟨m, e1, g1, g2⟩ := g.put (.cmd .show none (ops ++ [p]))
  refine .inr ⟨(), { s with mem := m }, ?_, rfl, h1, ?_, g2.2.trans h3⟩
  · simp only [add, M.bind, M.read, g.get, M.mem, e1]
  · simp only [allOwn, Owned.blocks, cmdOwn, Shape.block, Shape.rest, List.append_nil, List.nil_append]
    exact g1

end Verif.C76
