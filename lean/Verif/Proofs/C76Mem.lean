import Verif.Spec.C76

/-! C76: which blocks there are. -/
namespace Verif.C76
open CmdMem

abbrev Blocks := List (Ptr × Block)

/-- The blocks of `l` are live, and no others. -/
structure Holds (m : Mem) (l : Blocks) : Prop where
  perm : m.live.Perm l
  nodup : (l.map (·.1)).Nodup
  lt : ∀ x ∈ l, x.1 < m.next

theorem Holds.reorder {m : Mem} {l l' : Blocks} (h : Holds m l) (p : l.Perm l') : Holds m l' :=
  ⟨h.perm.trans p, (p.map _).nodup_iff.1 h.nodup, fun x hx => h.lt x (p.mem_iff.2 hx)⟩

theorem any_key {m : Mem} {p : Ptr} {b : Block} (h : (p, b) ∈ m.live) : m.live.any (·.1 == p) = true :=
  List.any_eq_true.2 ⟨_, h, by simp⟩

theorem Holds.get {m : Mem} {p : Ptr} {b : Block} {l : Blocks} (h : Holds m ((p, b) :: l)) : m.get p = .ok b := by
  have hm : (p, b) ∈ m.live := h.perm.mem_iff.2 List.mem_cons_self
  unfold Mem.get
  cases hf : m.live.find? (·.1 == p) with
  | none => exact absurd (List.find?_eq_none.1 hf _ hm) (by simp)
  | some x =>
    have h1 := List.find?_some hf
    have h2 := h.perm.mem_iff.1 (List.mem_of_find?_eq_some hf)
    simp only [beq_iff_eq] at h1
    rcases List.mem_cons.1 h2 with rfl | h2
    · rfl
    · have := h.nodup
      simp only [List.map_cons, List.nodup_cons] at this
      exact absurd (List.mem_map.2 ⟨x, h2, h1⟩) this.1

theorem filter_other {p : Ptr} {l : Blocks} (h : p ∉ l.map (·.1)) : l.filter (·.1 != p) = l :=
  List.filter_eq_self.2 fun x hx => by
    simp only [bne_iff_ne, ne_eq]
    rintro rfl
    exact h (List.mem_map.2 ⟨x, hx, rfl⟩)

/-- Same counters. -/
def Same (m m' : Mem) : Prop := m'.next = m.next ∧ m'.fails = m.fails

theorem Same.refl (m : Mem) : Same m m := ⟨rfl, rfl⟩
theorem Same.trans {a b c : Mem} (h : Same a b) (g : Same b c) : Same a c := ⟨g.1.trans h.1, g.2.trans h.2⟩

theorem Holds.free {m : Mem} {p : Ptr} {b : Block} {l : Blocks} (h : Holds m ((p, b) :: l)) :
    ∃ m', m.free p = .ok m' ∧ Holds m' l ∧ Same m m' := by
  have hm : (p, b) ∈ m.live := h.perm.mem_iff.2 List.mem_cons_self
  have hn := h.nodup
  simp only [List.map_cons, List.nodup_cons] at hn
  refine ⟨{ m with live := m.live.filter (·.1 != p) }, by rw [Mem.free, if_pos (any_key hm)], ⟨?_, hn.2, ?_⟩, rfl, rfl⟩
  · have := h.perm.filter (·.1 != p)
    rw [List.filter_cons_of_neg (by simp), filter_other hn.1] at this
    exact this
  · exact fun x hx => h.lt x (List.mem_cons_of_mem _ hx)

theorem Holds.put {m : Mem} {p : Ptr} {b : Block} {l : Blocks} (h : Holds m ((p, b) :: l)) (b' : Block) :
    ∃ m', m.put p b' = .ok m' ∧ Holds m' ((p, b') :: l) ∧ Same m m' := by
  have hm : (p, b) ∈ m.live := h.perm.mem_iff.2 List.mem_cons_self
  have hn := h.nodup
  simp only [List.map_cons, List.nodup_cons] at hn
  refine ⟨{ m with live := m.live.map fun x => if x.1 = p then (p, b') else x },
    by rw [Mem.put, if_pos (any_key hm)], ⟨?_, ?_, ?_⟩, rfl, rfl⟩
  · have := h.perm.map fun x => if x.1 = p then (p, b') else x
    rw [List.map_cons, if_pos rfl] at this
    have e : (l.map fun x => if x.1 = p then (p, b') else x) = l := by
      conv => rhs; rw [← List.map_id l]
      refine List.map_congr_left fun x hx => if_neg ?_
      rintro rfl
      exact hn.1 (List.mem_map.2 ⟨x, hx, rfl⟩)
    rw [e] at this
    exact this
  · simp only [List.map_cons, List.nodup_cons]; exact hn
  · intro x hx
    rcases List.mem_cons.1 hx with rfl | hx
    · exact h.lt (p, b) List.mem_cons_self
    · exact h.lt x (List.mem_cons_of_mem _ hx)

theorem Holds.malloc {m : Mem} {l : Blocks} (h : Holds m l) (b : Block) :
    Holds { m with next := m.next + 1, live := (m.next, b) :: m.live } ((m.next, b) :: l) := by
  refine ⟨h.perm.cons _, ?_, ?_⟩
  · simp only [List.map_cons, List.nodup_cons]
    refine ⟨?_, h.nodup⟩
    intro hx
    obtain ⟨x, hx, e⟩ := List.mem_map.1 hx
    exact Nat.ne_of_lt (h.lt x hx) e
  · intro x hx
    rcases List.mem_cons.1 hx with rfl | hx
    · exact Nat.lt_succ_self _
    · exact Nat.lt_succ_of_lt (h.lt x hx)

theorem Holds.tick {m : Mem} {l : Blocks} (h : Holds m l) : Holds { m with next := m.next + 1 } l :=
  ⟨h.perm, h.nodup, fun x hx => Nat.lt_succ_of_lt (h.lt x hx)⟩

/-- The blocks of the Str fields of a config. -/
def strOwn (strs : List (Option Ptr)) : Blocks := strs.filterMap fun o => o.map fun p => (p, .chars)

/-- The blocks of a config. -/
def cfgOwn (c : Ptr) (strs : List (Option Ptr)) : Blocks := (c, .config strs) :: strOwn strs

/-- The blocks of a list of tiers. -/
def tiersOwn : List (Ptr × List (Option Ptr)) → Blocks
  | [] => []
  | t :: l => cfgOwn t.1 t.2 ++ tiersOwn l

/-- What a command has. -/
inductive Shape where
  | null
  | config (c : Option (Ptr × List (Option Ptr)))
  | show (ops : List Ptr)
  | pipeline (tiers : List (Ptr × List (Option Ptr)))

def Shape.block : Shape → Block
  | .null => .cmd .null none []
  | .config none => .cmd .config none []
  | .config (some c) => .cmd .config (some c.1) []
  | .show ops => .cmd .show none ops
  | .pipeline tiers => .cmd .pipeline none (tiers.map (·.1))

def Shape.rest : Shape → Blocks
  | .null => []
  | .config none => []
  | .config (some c) => cfgOwn c.1 c.2
  | .show ops => ops.map fun p => (p, .op)
  | .pipeline tiers => tiersOwn tiers

/-- The blocks of a command. -/
def cmdOwn (k : Ptr) (s : Shape) : Blocks := (k, s.block) :: s.rest

theorem freeStrs_ok (strs : List (Option Ptr)) : ∀ {m : Mem} {l : Blocks}, Holds m (strOwn strs ++ l) →
    ∃ m', m.freeStrs strs = .ok m' ∧ Holds m' l ∧ Same m m' := by
  induction strs with
  | nil => intro m l h; exact ⟨m, rfl, h, Same.refl m⟩
  | cons o strs ih =>
    intro m l h
    cases o with
    | none => exact ih h
    | some p =>
      obtain ⟨m1, e1, h1, s1⟩ := Holds.free (p := p) (b := .chars) h
      obtain ⟨m2, e2, h2, s2⟩ := ih h1
      exact ⟨m2, by rw [Mem.freeStrs, e1]; exact e2, h2, s1.trans s2⟩

theorem config_free_ok {c : Ptr} {strs : List (Option Ptr)} {m : Mem} {l : Blocks} (h : Holds m (cfgOwn c strs ++ l)) :
    ∃ m', config_free m c = .ok m' ∧ Holds m' l ∧ Same m m' := by
  obtain ⟨m1, e1, h1, s1⟩ := freeStrs_ok strs (l := (c, .config strs) :: l)
    (h.reorder (List.perm_middle.symm))
  obtain ⟨m2, e2, h2, s2⟩ := h1.free
  refine ⟨m2, ?_, h2, s1.trans s2⟩
  rw [config_free, Holds.get h]
  simp only [Res.bind, e1, e2]

theorem free_ops_ok (ops : List Ptr) : ∀ {m : Mem} {l : Blocks}, Holds m (ops.map (fun p => (p, Block.op)) ++ l) →
    ∃ m', free_ops m ops = .ok m' ∧ Holds m' l ∧ Same m m' := by
  induction ops with
  | nil => intro m l h; exact ⟨m, rfl, h, Same.refl m⟩
  | cons p ops ih =>
    intro m l h
    obtain ⟨m1, e1, h1, s1⟩ := Holds.free (p := p) (b := .op) h
    obtain ⟨m2, e2, h2, s2⟩ := ih h1
    exact ⟨m2, by rw [free_ops, e1]; exact e2, h2, s1.trans s2⟩

theorem free_tiers_ok (ts : List (Ptr × List (Option Ptr))) : ∀ {m : Mem} {l : Blocks}, Holds m (tiersOwn ts ++ l) →
    ∃ m', free_tiers m (ts.map (·.1)) = .ok m' ∧ Holds m' l ∧ Same m m' := by
  induction ts with
  | nil => intro m l h; exact ⟨m, rfl, h, Same.refl m⟩
  | cons t ts ih =>
    intro m l h
    rw [tiersOwn, List.append_assoc] at h
    obtain ⟨m1, e1, h1, s1⟩ := config_free_ok h
    obtain ⟨m2, e2, h2, s2⟩ := ih h1
    exact ⟨m2, by rw [List.map_cons, free_tiers, e1]; exact e2, h2, s1.trans s2⟩

theorem cmd_free_ok {k : Ptr} {s : Shape} {m : Mem} {l : Blocks} (h : Holds m (cmdOwn k s ++ l)) :
    ∃ m', cmd_free m k = .ok m' ∧ Holds m' l ∧ Same m m' := by
  have hr : Holds m (s.rest ++ (k, s.block) :: l) := h.reorder (List.perm_middle.symm)
  have key : ∀ (r : Res Mem), (∃ m', r = .ok m' ∧ Holds m' ((k, s.block) :: l) ∧ Same m m') →
      ∃ m', (r.bind fun m => m.free k) = .ok m' ∧ Holds m' l ∧ Same m m' := by
    rintro r ⟨m1, rfl, h1, s1⟩
    obtain ⟨m2, e2, h2, s2⟩ := h1.free
    exact ⟨m2, e2, h2, s1.trans s2⟩
  rw [cmd_free, Holds.get h]
  simp only [Res.bind_ok]
  cases s with
  | null => exact key _ ⟨m, rfl, hr, Same.refl m⟩
  | config c =>
    cases c with
    | none => exact key _ ⟨m, rfl, hr, Same.refl m⟩
    | some c => exact key _ (config_free_ok hr)
  | «show» ops => exact key _ (free_ops_ok ops hr)
  | pipeline ts => exact key _ (free_tiers_ok ts hr)

/-- What is on the stack of guards. -/
inductive Owned where
  | cmd (k : Ptr) (s : Shape)
  | tier (c : Ptr) (strs : List (Option Ptr))

def Owned.guard : Owned → Guard
  | .cmd k _ => .cmd k
  | .tier c _ => .tier c

def Owned.blocks : Owned → Blocks
  | .cmd k s => cmdOwn k s
  | .tier c strs => cfgOwn c strs

def allOwn : List Owned → Blocks
  | [] => []
  | o :: l => o.blocks ++ allOwn l

theorem run_guards_ok (gs : List Owned) : ∀ {m : Mem} {l : Blocks}, Holds m (allOwn gs ++ l) →
    ∃ m', run_guards m (gs.map Owned.guard) = .ok m' ∧ Holds m' l ∧ Same m m' := by
  induction gs with
  | nil => intro m l h; exact ⟨m, rfl, h, Same.refl m⟩
  | cons o gs ih =>
    intro m l h
    rw [allOwn, List.append_assoc] at h
    cases o with
    | cmd k s =>
      obtain ⟨m1, e1, h1, s1⟩ := cmd_free_ok h
      obtain ⟨m2, e2, h2, s2⟩ := ih h1
      exact ⟨m2, by rw [List.map_cons, Owned.guard, run_guards, e1]; exact e2, h2, s1.trans s2⟩
    | tier c strs =>
      obtain ⟨m1, e1, h1, s1⟩ := config_free_ok h
      obtain ⟨m2, e2, h2, s2⟩ := ih h1
      exact ⟨m2, by rw [List.map_cons, Owned.guard, run_guards, e1]; exact e2, h2, s1.trans s2⟩

end Verif.C76
