import Verif.Model.Rbtree

/-! Helper lemmas about the red-black tree model. -/
namespace Verif.Rb
variable {α : Type}

/-- Elements before / after the hole of a path. -/
def before : Path α → List α
  | [] => []
  | .L _ _ _ :: p => before p
  | .R _ l v :: p => before p ++ (inorder l ++ [v])

def after : Path α → List α
  | [] => []
  | .L _ v r :: p => v :: inorder r ++ after p
  | .R _ _ _ :: p => after p

@[simp] theorem inorder_nil : inorder (Tree.nil : Tree α) = [] := rfl
@[simp] theorem inorder_node (c l) (v : α) (r) :
    inorder (.node c l v r) = inorder l ++ v :: inorder r := rfl
@[simp] theorem before_nil : before ([] : Path α) = [] := rfl
@[simp] theorem after_nil : after ([] : Path α) = [] := rfl
@[simp] theorem before_L (c) (v : α) (r p) : before (.L c v r :: p) = before p := rfl
@[simp] theorem before_R (c) (v : α) (l p) :
    before (.R c l v :: p) = before p ++ (inorder l ++ [v]) := rfl
@[simp] theorem after_L (c) (v : α) (r p) :
    after (.L c v r :: p) = v :: inorder r ++ after p := rfl
@[simp] theorem after_R (c) (v : α) (l p) : after (.R c l v :: p) = after p := rfl

@[simp] theorem inorder_blacken (t : Tree α) : inorder (blacken t) = inorder t := by
  cases t <;> rfl

theorem inorder_zip (p : Path α) : ∀ t : Tree α,
    inorder (zip t p) = before p ++ inorder t ++ after p := by
  induction p with
  | nil => intro t; simp [zip]
  | cons f p ih => intro t; cases f <;> simp [zip, ih, Frame.plug]

theorem inorder_plug (f : Frame α) (t : Tree α) :
    inorder (f.plug t) = before [f] ++ inorder t ++ after [f] := by
  cases f <;> simp [Frame.plug]

theorem rotateLeft_inorder {t t' : Tree α} (h : rotateLeft t = .ok t') :
    inorder t' = inorder t := by
  unfold rotateLeft at h; split at h
  · cases h; simp
  · cases h

theorem rotateRight_inorder {t t' : Tree α} (h : rotateRight t = .ok t') :
    inorder t' = inorder t := by
  unfold rotateRight at h; split at h
  · cases h; simp
  · cases h

theorem setFixup_inorder : ∀ (n : Tree α) (p : Path α) (t : Tree α),
    setFixup n p = .ok t → inorder t = before p ++ inorder n ++ after p := by
  intro n p
  fun_induction setFixup n p with
  | case1 n => intro t h; cases h; simp
  | case2 n p hp => intro t h; cases h
  | case3 n p hp => intro t h; cases h; simp [inorder_zip]
  | case4 n p g rest hp => intro t h; cases h; simp [inorder_zip]
  | case5 n p rest hp c gv u hu ih =>
    intro t h
    have := ih t h
    rw [this]; cases p <;> simp [Frame.plug]
  | case6 n p rest hp c gv u hu =>
    intro t h
    rw [Res.bind_eq_ok] at h
    obtain ⟨p', h1, h⟩ := h
    rw [Res.bind_eq_ok] at h
    obtain ⟨t2, h2, h⟩ := h
    cases h
    have e2 := rotateRight_inorder h2
    have e1 : inorder p' = inorder (p.plug n) := by
      cases p
      · cases h1; rfl
      · exact rotateLeft_inorder h1
    simp [inorder_zip, e2, e1]
    cases p <;> simp [Frame.plug]
  | case7 n p rest hp c u gv hu ih =>
    intro t h
    have := ih t h
    rw [this]; cases p <;> simp [Frame.plug]
  | case8 n p rest hp c u gv hu =>
    intro t h
    rw [Res.bind_eq_ok] at h
    obtain ⟨p', h1, h⟩ := h
    rw [Res.bind_eq_ok] at h
    obtain ⟨t2, h2, h⟩ := h
    cases h
    have e2 := rotateLeft_inorder h2
    have e1 : inorder p' = inorder (p.plug n) := by
      cases p
      · exact rotateRight_inorder h1
      · cases h1; rfl
    simp [inorder_zip, e2, e1]
    cases p <;> simp [Frame.plug]

def fixTree : Fix α → Tree α
  | .done t => t
  | .up t => t

theorem fixLeft_inorder {n : Tree α} {c v s f} (h : fixLeft n c v s = .ok f) :
    inorder (fixTree f) = inorder n ++ v :: inorder s := by
  unfold fixLeft at h
  split at h
  · cases h
  · split at h
    · cases h; simp [fixTree]
    · rw [Res.bind_eq_ok] at h
      obtain ⟨s', h1, h⟩ := h
      split at h
      · rw [Res.bind_eq_ok] at h
        obtain ⟨t, h2, h⟩ := h
        cases h
        have e2 := rotateLeft_inorder h2
        simp [fixTree, e2]
        split at h1
        · split at h1
          · cases h1
          · have := rotateRight_inorder h1
            simp at this; simp [this]
        · cases h1; simp
      · cases h

theorem fixRight_inorder {n : Tree α} {c v s f} (h : fixRight s c v n = .ok f) :
    inorder (fixTree f) = inorder s ++ v :: inorder n := by
  unfold fixRight at h
  split at h
  · cases h
  · split at h
    · cases h; simp [fixTree]
    · rw [Res.bind_eq_ok] at h
      obtain ⟨s', h1, h⟩ := h
      split at h
      · rw [Res.bind_eq_ok] at h
        obtain ⟨t, h2, h⟩ := h
        cases h
        have e2 := rotateRight_inorder h2
        simp [fixTree, e2]
        split at h1
        · split at h1
          · cases h1
          · have := rotateLeft_inorder h1
            have e3 := congrArg (· ++ v :: inorder n) this
            simpa using e3
        · cases h1; simp
      · cases h

theorem removeFixup_inorder : ∀ (n : Tree α) (p : Path α) (t : Tree α),
    removeFixup n p = .ok t → inorder t = before p ++ inorder n ++ after p := by
  intro n p
  induction p generalizing n with
  | nil => intro t h; simp only [removeFixup] at h; cases h; simp
  | cons f rest ih =>
    intro t h
    cases f with
    | L c v s =>
      simp only [removeFixup] at h
      split at h
      · rw [Res.bind_eq_ok] at h
        obtain ⟨f, h1, h⟩ := h
        have e := fixLeft_inorder h1
        cases f <;> (simp only at h; cases h; simp [inorder_zip, fixTree] at e ⊢; simp [e])
      · rw [Res.bind_eq_ok] at h
        obtain ⟨f, h1, h⟩ := h
        have e := fixLeft_inorder h1
        cases f with
        | done t' => simp only at h; cases h; simp [inorder_zip, fixTree] at e ⊢; simp [e]
        | up t' =>
          simp only at h
          simp [fixTree] at e
          split at h
          · cases h; simp [inorder_zip, e]
          · have := ih t' t h
            simp [this, e]
    | R c s v =>
      simp only [removeFixup] at h
      split at h
      · rw [Res.bind_eq_ok] at h
        obtain ⟨f, h1, h⟩ := h
        have e := fixRight_inorder h1
        cases f <;> (simp only at h; cases h; simp [inorder_zip, fixTree] at e ⊢; simp [e])
      · rw [Res.bind_eq_ok] at h
        obtain ⟨f, h1, h⟩ := h
        have e := fixRight_inorder h1
        cases f with
        | done t' => simp only at h; cases h; simp [inorder_zip, fixTree] at e ⊢; simp [e]
        | up t' =>
          simp only at h
          simp [fixTree] at e
          split at h
          · cases h; simp [inorder_zip, e]
          · have := ih t' t h
            simp [this, e]

theorem takeMin_inorder (c : Color) (l : Tree α) (v : α) (r : Tree α) (p : Path α) :
    before p ++ inorder (.node c l v r) ++ after p =
      before (takeMin c l v r p).2.2.2 ++ (takeMin c l v r p).2.1 ::
        (inorder (takeMin c l v r p).2.2.1 ++ after (takeMin c l v r p).2.2.2) := by
  induction l generalizing c v r p with
  | nil => simp [takeMin]
  | node c' l' v' r' ihl _ =>
    rw [takeMin]
    have := ihl c' v' r' (.L c v r :: p)
    simp only [before_L, after_L] at this
    rw [← this]; simp

theorem takeMin_before (c : Color) (l : Tree α) (v : α) (r : Tree α) (p : Path α) :
    before (takeMin c l v r p).2.2.2 = before p := by
  induction l generalizing c v r p with
  | nil => simp [takeMin]
  | node c' l' v' r' ihl _ => rw [takeMin]; simp [ihl]

theorem before_append (p q : Path α) : before (p ++ q) = before q ++ before p := by
  induction p with
  | nil => simp
  | cons f p ih => cases f <;> simp [ih]

theorem after_append (p q : Path α) : after (p ++ q) = after p ++ after q := by
  induction p with
  | nil => simp
  | cons f p ih => cases f <;> simp [ih]

/-- The list of elements of the tree around a location. -/
theorem Loc.inorder_tree (x : Loc α) :
    inorder x.tree = (before x.path ++ inorder x.l) ++ x.v :: (inorder x.r ++ after x.path) := by
  simp [Loc.tree, inorder_zip]

theorem remove_inorder {n : Loc α} {t : Tree α} (h : remove n = .ok t) :
    inorder t = (before n.path ++ inorder n.l) ++ (inorder n.r ++ after n.path) := by
  obtain ⟨c, l, v, r, path⟩ := n
  cases l with
  | nil =>
    simp only [remove] at h
    split at h
    · cases h; simp [inorder_zip]
    · split at h
      · cases h; simp [inorder_zip]
      · have := removeFixup_inorder _ _ _ h; simp [this]
  | node cl ll vl rl =>
    cases r with
    | nil =>
      simp only [remove] at h
      split at h
      · cases h; simp [inorder_zip]
      · split at h
        · cases h; simp [inorder_zip]
        · have := removeFixup_inorder _ _ _ h; simp [this]
    | node cr lr vr rr =>
      simp only [remove] at h
      have e := takeMin_inorder cr lr vr rr []
      have eb := takeMin_before cr lr vr rr []
      rcases hx : takeMin cr lr vr rr [] with ⟨xc, xv, xr, inner⟩
      rw [hx] at h e eb
      simp only at h e eb
      have goal : ∀ t', inorder t' = before (inner ++ (.R c (.node cl ll vl rl) xv :: path))
          ++ inorder xr ++ after (inner ++ (.R c (.node cl ll vl rl) xv :: path)) →
          inorder t' = (before path ++ inorder (.node cl ll vl rl)) ++
            (inorder (.node cr lr vr rr) ++ after path) := by
        intro t' ht'
        rw [ht']
        simp only [before_append, after_append, eb, before_nil, before_R, after_R,
          List.append_nil, List.append_assoc]
        simp only [before_nil, after_nil, List.nil_append, List.append_nil, eb] at e
        rw [e]; simp
      split at h
      · cases h; apply goal; simp [inorder_zip]
      · split at h
        · cases h; apply goal; simp [inorder_zip]
        · exact goal _ (removeFixup_inorder _ _ _ h)

theorem set_none_inorder {prel : Int} {x : α} {t : Tree α} (h : set none prel x = .ok t) :
    inorder t = [x] := by
  have := setFixup_inorder _ _ _ h; simpa using this

theorem set_left_inorder {p : Loc α} {prel : Int} {x : α} {t : Tree α} (hp : prel > 0)
    (h : set (some p) prel x = .ok t) :
    inorder t = before p.path ++ x :: p.v :: (inorder p.r ++ after p.path) := by
  simp only [set] at h
  rw [if_neg (by omega), if_pos hp] at h
  have := setFixup_inorder _ _ _ h; simpa using this

theorem set_right_inorder {p : Loc α} {prel : Int} {x : α} {t : Tree α} (hp : prel < 0)
    (h : set (some p) prel x = .ok t) :
    inorder t = before p.path ++ inorder p.l ++ p.v :: x :: after p.path := by
  simp only [set] at h
  rw [if_neg (by omega), if_neg (by omega)] at h
  have := setFixup_inorder _ _ _ h; simpa using this

/-! ### Navigation -/

theorem descendLeft_spec (c : Color) (l : Tree α) (v : α) (r : Tree α) (p : Path α) :
    (descendLeft c l v r p).tree = zip (.node c l v r) p ∧
    before (descendLeft c l v r p).path ++ inorder (descendLeft c l v r p).l = before p := by
  induction l generalizing c v r p with
  | nil => simp [descendLeft, Loc.tree]
  | node c' l' v' r' ihl _ =>
    rw [descendLeft]
    have := ihl c' v' r' (.L c v r :: p)
    refine ⟨?_, ?_⟩
    · rw [this.1]; rfl
    · rw [this.2]; rfl

theorem descendRight_spec (c : Color) (l : Tree α) (v : α) (r : Tree α) (p : Path α) :
    (descendRight c l v r p).tree = zip (.node c l v r) p ∧
    inorder (descendRight c l v r p).r ++ after (descendRight c l v r p).path = after p := by
  induction r generalizing c l v p with
  | nil => simp [descendRight, Loc.tree]
  | node c' l' v' r' _ ihr =>
    rw [descendRight]
    have := ihr c' l' v' (.R c l v :: p)
    refine ⟨?_, ?_⟩
    · rw [this.1]; rfl
    · rw [this.2]; rfl

/-- Elements strictly before / after a node. -/
def Loc.lo (x : Loc α) : List α := before x.path ++ inorder x.l
def Loc.hi (x : Loc α) : List α := inorder x.r ++ after x.path

theorem Loc.inorder_eq (x : Loc α) : inorder x.tree = x.lo ++ x.v :: x.hi := x.inorder_tree

theorem climbNext_some {t : Tree α} {p : Path α} {x : Loc α} (h : climbNext t p = some x) :
    x.tree = zip t p ∧ x.lo = before p ++ inorder t := by
  induction p generalizing t with
  | nil => simp [climbNext] at h
  | cons f p ih =>
    cases f with
    | L c v r => simp only [climbNext, Option.some.injEq] at h; subst h; simp [Loc.tree, Loc.lo, zip, Frame.plug]
    | R c l v =>
      simp only [climbNext] at h
      have := ih h
      simpa [zip, Frame.plug] using this

theorem climbNext_none {t : Tree α} {p : Path α} (h : climbNext t p = none) : after p = [] := by
  induction p generalizing t with
  | nil => rfl
  | cons f p ih =>
    cases f with
    | L c v r => simp [climbNext] at h
    | R c l v => exact ih h

theorem climbPrev_some {t : Tree α} {p : Path α} {x : Loc α} (h : climbPrev t p = some x) :
    x.tree = zip t p ∧ x.hi = inorder t ++ after p := by
  induction p generalizing t with
  | nil => simp [climbPrev] at h
  | cons f p ih =>
    cases f with
    | R c l v => simp only [climbPrev, Option.some.injEq] at h; subst h; simp [Loc.tree, Loc.hi, zip, Frame.plug]
    | L c v r =>
      simp only [climbPrev] at h
      have := ih h
      simpa [zip, Frame.plug] using this

theorem climbPrev_none {t : Tree α} {p : Path α} (h : climbPrev t p = none) : before p = [] := by
  induction p generalizing t with
  | nil => rfl
  | cons f p ih =>
    cases f with
    | R c l v => simp [climbPrev] at h
    | L c v r => exact ih h

theorem next_some {n x : Loc α} (h : next n = some x) :
    x.tree = n.tree ∧ x.lo = n.lo ++ [n.v] := by
  obtain ⟨c, l, v, r, p⟩ := n
  cases r with
  | nil =>
    simp only [next] at h
    have := climbNext_some h
    simpa [Loc.tree, Loc.lo] using this
  | node c' l' v' r' =>
    simp only [next, Option.some.injEq] at h
    subst h
    have := descendLeft_spec c' l' v' r' (.R c l v :: p)
    simp only [Loc.lo, this.1, this.2]
    simp [Loc.tree, zip, Frame.plug]

theorem next_none {n : Loc α} (h : next n = none) : n.hi = [] := by
  obtain ⟨c, l, v, r, p⟩ := n
  cases r with
  | nil => simp only [next] at h; simp [Loc.hi, climbNext_none h]
  | node c' l' v' r' => simp [next] at h

theorem prev_some {n x : Loc α} (h : prev n = some x) :
    x.tree = n.tree ∧ x.hi = n.v :: n.hi := by
  obtain ⟨c, l, v, r, p⟩ := n
  cases l with
  | nil =>
    simp only [prev] at h
    have := climbPrev_some h
    simpa [Loc.tree, Loc.hi] using this
  | node c' l' v' r' =>
    simp only [prev, Option.some.injEq] at h
    subst h
    have := descendRight_spec c' l' v' r' (.L c v r :: p)
    simp only [Loc.hi, this.1, this.2]
    simp [Loc.tree, zip, Frame.plug]

theorem prev_none {n : Loc α} (h : prev n = none) : n.lo = [] := by
  obtain ⟨c, l, v, r, p⟩ := n
  cases l with
  | nil => simp only [prev] at h; simp [Loc.lo, climbPrev_none h]
  | node c' l' v' r' => simp [prev] at h

theorem min_some {t : Tree α} {x : Loc α} (h : min t = some x) : x.tree = t ∧ x.lo = [] := by
  cases t with
  | nil => simp [min] at h
  | node c l v r =>
    simp only [min, Option.some.injEq] at h
    subst h
    have := descendLeft_spec c l v r []
    exact ⟨this.1, this.2⟩

theorem min_none {t : Tree α} (h : min t = none) : t = .nil := by
  cases t <;> simp [min] at h ⊢

theorem max_some {t : Tree α} {x : Loc α} (h : max t = some x) : x.tree = t ∧ x.hi = [] := by
  cases t with
  | nil => simp [max] at h
  | node c l v r =>
    simp only [max, Option.some.injEq] at h
    subst h
    have := descendRight_spec c l v r []
    exact ⟨this.1, this.2⟩

theorem max_none {t : Tree α} (h : max t = none) : t = .nil := by
  cases t <;> simp [max] at h ⊢

theorem locate_some {is : α → Bool} {t : Tree α} {p : Path α} {x : Loc α}
    (h : locate is t p = some x) :
    x.tree = zip t p ∧ is x.v = true ∧
      ∃ lo, x.lo = before p ++ lo ∧ ∀ a ∈ lo, is a = false := by
  induction t generalizing p with
  | nil => simp [locate] at h
  | node c l v r ihl ihr =>
    simp only [locate] at h
    cases hl : locate is l (.L c v r :: p) with
    | some y =>
      rw [hl] at h; simp only [Option.some.injEq] at h; subst h
      simpa [zip, Frame.plug] using ihl hl
    | none =>
      rw [hl] at h; simp only at h
      have hnone : ∀ a ∈ inorder l, is a = false := by
        clear ihl ihr h
        generalize (Frame.L c v r :: p) = q at hl
        induction l generalizing q with
        | nil => simp
        | node c' l' v' r' ihl' ihr' =>
          simp only [locate] at hl
          cases h1 : locate is l' (.L c' v' r' :: q) with
          | some _ => rw [h1] at hl; simp at hl
          | none =>
            rw [h1] at hl; simp only at hl
            cases hv : is v' with
            | true => rw [hv] at hl; simp at hl
            | false =>
              rw [hv] at hl; simp at hl
              intro a ha
              simp at ha
              rcases ha with ha | ha | ha
              · exact ihl' _ h1 a ha
              · rw [ha]; exact hv
              · exact ihr' _ hl a ha
      cases hv : is v with
      | true =>
        rw [hv] at h; simp at h; subst h
        exact ⟨rfl, hv, inorder l, rfl, hnone⟩
      | false =>
        rw [hv] at h; simp at h
        obtain ⟨h1, h2, lo, h3, h4⟩ := ihr h
        refine ⟨h1, h2, inorder l ++ v :: lo, ?_, ?_⟩
        · rw [h3]; simp
        · intro a ha
          simp at ha
          rcases ha with ha | ha | ha
          · exact hnone a ha
          · rw [ha]; exact hv
          · exact h4 a ha

theorem locate_none {is : α → Bool} {t : Tree α} {p : Path α}
    (h : locate is t p = none) : ∀ a ∈ inorder t, is a = false := by
  induction t generalizing p with
  | nil => simp
  | node c l v r ihl ihr =>
    simp only [locate] at h
    cases h1 : locate is l (.L c v r :: p) with
    | some _ => rw [h1] at h; simp at h
    | none =>
      rw [h1] at h; simp only at h
      cases hv : is v with
      | true => rw [hv] at h; simp at h
      | false =>
        rw [hv] at h; simp at h
        intro a ha
        simp at ha
        rcases ha with ha | ha | ha
        · exact ihl h1 a ha
        · rw [ha]; exact hv
        · exact ihr h a ha

/-! ### Search -/

/-- `get` with a comparison that is defined on every element returns a
location in the tree; the elements to its left compare negative and those to
its right compare positive, as far as the comparison is monotone. -/
theorem get_loc {cmp : α → Res Int} {t : Tree α} {p : Path α} {rc : Int} {x : Loc α}
    (h : get cmp t p = .ok (some (rc, x))) : x.tree = zip t p ∧ cmp x.v = .ok rc := by
  induction t generalizing p rc x with
  | nil => simp [get] at h
  | node c l v r ihl ihr =>
    simp only [get] at h
    rw [Res.bind_eq_ok] at h
    obtain ⟨rc', hc, h⟩ := h
    split at h
    · rw [Res.bind_eq_ok] at h
      obtain ⟨m, hm, h⟩ := h
      split at h
      · simp only [Res.ok.injEq, Option.some.injEq] at h; subst h
        simpa [zip, Frame.plug] using ihr hm
      · simp only [Res.ok.injEq, Option.some.injEq, Prod.mk.injEq] at h
        obtain ⟨rfl, rfl⟩ := h
        exact ⟨rfl, hc⟩
    · split at h
      · rw [Res.bind_eq_ok] at h
        obtain ⟨m, hm, h⟩ := h
        split at h
        · simp only [Res.ok.injEq, Option.some.injEq] at h; subst h
          simpa [zip, Frame.plug] using ihl hm
        · simp only [Res.ok.injEq, Option.some.injEq, Prod.mk.injEq] at h
          obtain ⟨rfl, rfl⟩ := h
          exact ⟨rfl, hc⟩
      · simp only [Res.ok.injEq, Option.some.injEq, Prod.mk.injEq] at h
        obtain ⟨rfl, rfl⟩ := h
        exact ⟨rfl, hc⟩

theorem get_none {cmp : α → Res Int} {t : Tree α} {p : Path α}
    (h : get cmp t p = .ok none) : t = .nil := by
  cases t with
  | nil => rfl
  | node c l v r =>
    simp only [get] at h
    rw [Res.bind_eq_ok] at h
    obtain ⟨rc', hc, h⟩ := h
    split at h
    · rw [Res.bind_eq_ok] at h
      obtain ⟨m, hm, h⟩ := h
      split at h <;> simp at h
    · split at h
      · rw [Res.bind_eq_ok] at h
        obtain ⟨m, hm, h⟩ := h
        split at h <;> simp at h
      · simp at h

/-- Totality: if the comparison is defined on all elements, so is the search. -/
theorem get_ok {cmp : α → Res Int} {t : Tree α} (p : Path α)
    (h : ∀ a ∈ inorder t, ∃ rc, cmp a = .ok rc) : ∃ m, get cmp t p = .ok m := by
  induction t generalizing p with
  | nil => exact ⟨none, rfl⟩
  | node c l v r ihl ihr =>
    obtain ⟨rc, hrc⟩ := h v (by simp)
    obtain ⟨ml, hml⟩ := ihl (.L c v r :: p) (fun a ha => h a (by simp [ha]))
    obtain ⟨mr, hmr⟩ := ihr (.R c l v :: p) (fun a ha => h a (by simp [ha]))
    simp only [get, hrc, Res.bind_ok, hml, hmr]
    split
    · cases mr <;> exact ⟨_, rfl⟩
    · split
      · cases ml <;> exact ⟨_, rfl⟩
      · exact ⟨_, rfl⟩

/-- Where the search ends: given a sign function `f` (the comparison results)
that is monotone along the in-order list, all elements before the found node
have negative sign, all after have positive sign; and if the search ended by
falling off (`rc ≠ 0`), the found node is next to the insertion point. -/
theorem get_sides {cmp : α → Res Int} {f : α → Int} {t : Tree α} {p : Path α} {rc : Int} {x : Loc α}
    (hcmp : ∀ a ∈ inorder t, cmp a = .ok (f a))
    (hmono : (inorder t).Pairwise (fun a b => (f a > 0 → f b > 0) ∧ (f b < 0 → f a < 0) ∧
      (f a = 0 → f b > 0) ∧ (f b = 0 → f a < 0)))
    (h : get cmp t p = .ok (some (rc, x))) :
    (rc < 0 → x.r = .nil ∧ ∃ hi, x.hi = hi ++ after p ∧ ∀ a ∈ hi, f a > 0) ∧
    (rc > 0 → x.l = .nil ∧ ∃ lo, x.lo = before p ++ lo ∧ ∀ a ∈ lo, f a < 0) := by
  induction t generalizing p rc x with
  | nil => simp [get] at h
  | node c l v r ihl ihr =>
    have hv := hcmp v (by simp)
    simp only [get, hv, Res.bind_ok] at h
    simp only [inorder_node] at hmono hcmp
    rw [List.pairwise_append] at hmono
    obtain ⟨ml, mr, mlr⟩ := hmono
    rw [List.pairwise_cons] at mr
    obtain ⟨mv, mr⟩ := mr
    split at h
    · next hneg =>
      rw [Res.bind_eq_ok] at h
      obtain ⟨m, hm, h⟩ := h
      split at h
      · simp only [Res.ok.injEq, Option.some.injEq] at h; subst h
        obtain ⟨h1, h2⟩ := ihr (fun a ha => hcmp a (by simp [ha])) mr hm
        refine ⟨fun hr => ?_, fun hr => ?_⟩
        · obtain ⟨h3, hi, h4, h5⟩ := h1 hr
          exact ⟨h3, hi, by simpa using h4, h5⟩
        · obtain ⟨h3, lo, h4, h5⟩ := h2 hr
          refine ⟨h3, inorder l ++ v :: lo, by simp [h4], ?_⟩
          intro a ha
          simp at ha
          rcases ha with ha | ha | ha
          · exact (mlr a ha v (by simp)).2.1 hneg
          · rw [ha]; exact hneg
          · exact h5 a ha
      · simp only [Res.ok.injEq, Option.some.injEq, Prod.mk.injEq] at h
        obtain ⟨rfl, rfl⟩ := h
        have := get_none hm
        subst this
        refine ⟨fun _ => ⟨rfl, [], rfl, by simp⟩, fun hr => ?_⟩
        omega
    · split at h
      · next hpos =>
        rw [Res.bind_eq_ok] at h
        obtain ⟨m, hm, h⟩ := h
        split at h
        · simp only [Res.ok.injEq, Option.some.injEq] at h; subst h
          obtain ⟨h1, h2⟩ := ihl (fun a ha => hcmp a (by simp [ha])) ml hm
          refine ⟨fun hr => ?_, fun hr => ?_⟩
          · obtain ⟨h3, hi, h4, h5⟩ := h1 hr
            refine ⟨h3, hi ++ v :: inorder r, by simp [h4], ?_⟩
            intro a ha
            simp at ha
            rcases ha with ha | ha | ha
            · exact h5 a ha
            · rw [ha]; exact hpos
            · exact (mv a ha).1 hpos
          · obtain ⟨h3, lo, h4, h5⟩ := h2 hr
            exact ⟨h3, lo, by simpa using h4, h5⟩
        · simp only [Res.ok.injEq, Option.some.injEq, Prod.mk.injEq] at h
          obtain ⟨rfl, rfl⟩ := h
          have := get_none hm
          subst this
          refine ⟨fun hr => ?_, fun _ => ⟨rfl, [], ?_, by simp⟩⟩
          · omega
          · simp [Loc.lo]
      · simp only [Res.ok.injEq, Option.some.injEq, Prod.mk.injEq] at h
        obtain ⟨rfl, rfl⟩ := h
        refine ⟨fun hr => ?_, fun hr => ?_⟩ <;> omega

end Verif.Rb
