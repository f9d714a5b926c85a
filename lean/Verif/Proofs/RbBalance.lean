import Verif.Proofs.Rbtree
import Verif.Spec.Order

/-! The red-black invariant: preserved by `set` and `remove`, excludes all NULL
dereferences, bounds the depth. -/
namespace Verif.Rb
open Spec (depth)
variable {α : Type}

/-- `RB c h t`: `t` has root colour `c` (NULL counts as black), no red node has
a red child, every path to NULL has `h` black nodes. -/
inductive RB : Color → Nat → Tree α → Prop
  | nil : RB .black 0 .nil
  | red {h l v r} : RB .black h l → RB .black h r → RB .red h (.node .red l v r)
  | black {h c1 c2 l v r} : RB c1 h l → RB c2 h r → RB .black (h + 1) (.node .black l v r)

/-- A well formed tree: the root is black. -/
def Valid (t : Tree α) : Prop := ∃ h, RB .black h t

def headBlack : Path α → Prop
  | [] => False
  | f :: _ => f.color = .black

/-- `Ctx p h`: the path of a tree whose hole expects black height `h`. -/
inductive Ctx : Path α → Nat → Prop
  | nil {h} : Ctx [] h
  | lb {h c v r p} : RB c h r → Ctx p (h + 1) → Ctx (.L .black v r :: p) h
  | rb {h c l v p} : RB c h l → Ctx p (h + 1) → Ctx (.R .black l v :: p) h
  | lr {h v r p} : RB .black h r → Ctx p h → headBlack p → Ctx (.L .red v r :: p) h
  | rr {h l v p} : RB .black h l → Ctx p h → headBlack p → Ctx (.R .red l v :: p) h

theorem blacken_node (c : Color) (l : Tree α) (v : α) (r : Tree α) :
    blacken (.node c l v r) = .node .black l v r := rfl

theorem RB.not_red {h} {t : Tree α} (ht : RB .black h t) : isRed t = false := by
  cases ht <;> rfl

theorem RB.of_not_red {c h} {t : Tree α} (ht : RB c h t) (hr : isRed t = false) : RB .black h t := by
  cases ht
  · exact .nil
  · simp [isRed] at hr
  · exact .black ‹_› ‹_›

theorem RB.of_red {c h} {t : Tree α} (ht : RB c h t) (hr : isRed t = true) : RB .red h t := by
  cases ht
  · simp [isRed] at hr
  · exact .red ‹_› ‹_›
  · simp [isRed] at hr

theorem RB.blacken_red {h} {t : Tree α} (ht : RB .red h t) : RB .black (h + 1) (blacken t) := by
  cases ht; exact .black ‹_› ‹_›

theorem RB.blacken_black {h} {t : Tree α} (ht : RB .black h t) : blacken t = t := by
  cases ht <;> rfl

theorem valid_blacken {c h} {t : Tree α} (ht : RB c h t) : Valid (blacken t) := by
  cases ht
  · exact ⟨_, .nil⟩
  · exact ⟨_, .black ‹_› ‹_›⟩
  · exact ⟨_, .black ‹_› ‹_›⟩

theorem zip_both (p : Path α) :
    (∀ h t, Ctx p h → RB .black h t → Valid (zip t p)) ∧
    (∀ h c t, Ctx p h → headBlack p → RB c h t → Valid (zip t p)) := by
  induction p with
  | nil => exact ⟨fun h t _ ht => ⟨h, ht⟩, fun _ _ _ _ hb _ => hb.elim⟩
  | cons f p ih =>
    obtain ⟨ih1, ih2⟩ := ih
    refine ⟨fun h t hp ht => ?_, fun h c t hp hb ht => ?_⟩
    · cases hp with
      | lb hr hp => exact ih1 _ _ hp (.black ht hr)
      | rb hl hp => exact ih1 _ _ hp (.black hl ht)
      | lr hr hp hb => exact ih2 _ _ _ hp hb (.red ht hr)
      | rr hl hp hb => exact ih2 _ _ _ hp hb (.red hl ht)
    · cases hp with
      | lb hr hp => exact ih1 _ _ hp (.black ht hr)
      | rb hl hp => exact ih1 _ _ hp (.black hl ht)
      | lr => simp [headBlack, Frame.color] at hb
      | rr => simp [headBlack, Frame.color] at hb

/-- Plugging a black subtree of the right height. -/
theorem zip_black {p : Path α} {h t} (hp : Ctx p h) (ht : RB .black h t) : Valid (zip t p) :=
  (zip_both p).1 _ _ hp ht

/-- Plugging any subtree of the right height below a black parent. -/
theorem zip_any {p : Path α} {h c t} (hp : Ctx p h) (hb : headBlack p) (ht : RB c h t) :
    Valid (zip t p) := (zip_both p).2 _ _ _ hp hb ht

theorem zip_blacken_valid {t : Tree α} (h : Valid t) : blacken t = t := by
  obtain ⟨_, h⟩ := h; exact h.blacken_black

theorem setFixup_valid (n : Tree α) (p : Path α) (h : Nat) (hn : RB .red h n) (hp : Ctx p h) :
    ∃ t, setFixup n p = .ok t ∧ Valid t := by
  match p, hp with
  | [], _ => exact ⟨_, rfl, valid_blacken hn⟩
  | [f], hp =>
    cases hp with
    | @lb _ _ v _ _ hr hp =>
      have := zip_any (.lb (v := v) hr hp) rfl hn
      exact ⟨_, by simp only [setFixup, Frame.color]; rw [zip_blacken_valid this]; rfl, this⟩
    | @rb _ _ _ v _ hl hp =>
      have := zip_any (.rb (v := v) hl hp) rfl hn
      exact ⟨_, by simp only [setFixup, Frame.color]; rw [zip_blacken_valid this]; rfl, this⟩
    | lr _ _ hb => exact hb.elim
    | rr _ _ hb => exact hb.elim
  | f :: g :: rest, hp =>
    cases hp with
    | @lb _ _ v _ _ hr hp =>
      have := zip_any (.lb (v := v) hr hp) rfl hn
      exact ⟨_, by simp only [setFixup, Frame.color]; rw [zip_blacken_valid this]; rfl, this⟩
    | @rb _ _ _ v _ hl hp =>
      have := zip_any (.rb (v := v) hl hp) rfl hn
      exact ⟨_, by simp only [setFixup, Frame.color]; rw [zip_blacken_valid this]; rfl, this⟩
    | @lr _ v r _ hr hp hb =>
      cases hp with
      | lr => simp [headBlack, Frame.color] at hb
      | rr => simp [headBlack, Frame.color] at hb
      | @lb _ c gv u _ hu hp =>
        cases hred : isRed u with
        | true =>
          have hub := (hu.of_red hred).blacken_red
          obtain ⟨t, h1, h2⟩ := setFixup_valid (.node .red (blacken (Frame.plug (.L .red v r) n)) gv (blacken u))
            rest (h + 1) (.red (.black hn hr) hub) hp
          exact ⟨t, by simp [setFixup, Frame.color, hred, h1], h2⟩
        | false =>
          have hub := hu.of_not_red hred
          have : RB .black (h + 1) (.node .black n v (.node .red r gv u)) :=
            .black hn (.red hr hub)
          have hv := zip_black hp this
          exact ⟨_, by simp [setFixup, Frame.color, hred, rotateRight, Frame.plug, blacken_node,
            zip_blacken_valid hv], hv⟩
      | @rb _ c u gv _ hu hp =>
        cases hred : isRed u with
        | true =>
          have hub := (hu.of_red hred).blacken_red
          obtain ⟨t, h1, h2⟩ := setFixup_valid (.node .red (blacken u) gv (blacken (Frame.plug (.L .red v r) n)))
            rest (h + 1) (.red hub (.black hn hr)) hp
          exact ⟨t, by simp [setFixup, Frame.color, hred, h1], h2⟩
        | false =>
          have hub := hu.of_not_red hred
          cases hn with
          | @red _ nl nv nr hnl hnr =>
            have : RB .black (h + 1) (.node .black (.node .red u gv nl) nv (.node .red nr v r)) :=
              .black (.red hub hnl) (.red hnr hr)
            have hv := zip_black hp this
            exact ⟨_, by simp [setFixup, Frame.color, hred, rotateRight, rotateLeft, Frame.plug,
              blacken_node, zip_blacken_valid hv], hv⟩
    | @rr _ l v _ hl hp hb =>
      cases hp with
      | lr => simp [headBlack, Frame.color] at hb
      | rr => simp [headBlack, Frame.color] at hb
      | @lb _ c gv u _ hu hp =>
        cases hred : isRed u with
        | true =>
          have hub := (hu.of_red hred).blacken_red
          obtain ⟨t, h1, h2⟩ := setFixup_valid (.node .red (blacken (Frame.plug (.R .red l v) n)) gv (blacken u))
            rest (h + 1) (.red (.black hl hn) hub) hp
          exact ⟨t, by simp [setFixup, Frame.color, hred, h1], h2⟩
        | false =>
          have hub := hu.of_not_red hred
          cases hn with
          | @red _ nl nv nr hnl hnr =>
            have : RB .black (h + 1) (.node .black (.node .red l v nl) nv (.node .red nr gv u)) :=
              .black (.red hl hnl) (.red hnr hub)
            have hv := zip_black hp this
            exact ⟨_, by simp [setFixup, Frame.color, hred, rotateRight, rotateLeft, Frame.plug,
              blacken_node, zip_blacken_valid hv], hv⟩
      | @rb _ c u gv _ hu hp =>
        cases hred : isRed u with
        | true =>
          have hub := (hu.of_red hred).blacken_red
          obtain ⟨t, h1, h2⟩ := setFixup_valid (.node .red (blacken u) gv (blacken (Frame.plug (.R .red l v) n)))
            rest (h + 1) (.red hub (.black hl hn)) hp
          exact ⟨t, by simp [setFixup, Frame.color, hred, h1], h2⟩
        | false =>
          have hub := hu.of_not_red hred
          have : RB .black (h + 1) (.node .black (.node .red u gv l) v n) :=
            .black (.red hub hl) hn
          have hv := zip_black hp this
          exact ⟨_, by simp [setFixup, Frame.color, hred, rotateLeft, Frame.plug, blacken_node,
            zip_blacken_valid hv], hv⟩
termination_by p.length

/-- Result of a fix step whose subtree lost one black node: `done` restores the
height `h + 1 (+1 if the parent was black)` with the old parent colour bound,
`up` passes the loss to the parent. -/
theorem fixLeft_valid {n : Tree α} {h c v s cs} (hn : RB .black h n) (hs : RB cs (h + 1) s)
    (hs0 : isRed s = false) :
    (∃ t, fixLeft n c v s = .ok (.done t) ∧
      (c = .red → RB .red (h + 1) t) ∧ (c = .black → RB .black (h + 2) t)) ∨
    (∃ s', fixLeft n c v s = .ok (.up (.node c n v s')) ∧ RB .red h s') := by
  have hs := hs.of_not_red hs0
  cases hs with
  | @black _ c1 c2 sl sv sr hsl hsr =>
    cases hl : isRed sl <;> cases hr : isRed sr
    · right
      exact ⟨.node .red sl sv sr, by simp [fixLeft, hl, hr], .red (hsl.of_not_red hl) (hsr.of_not_red hr)⟩
    · left
      have hsr := hsr.of_red hr
      cases hsr with
      | @red _ a b d ha hd =>
        refine ⟨.node c (.node .black n v sl) sv (.node .black a b d), ?_, ?_, ?_⟩
        · simp [fixLeft, hr, rotateLeft]
        · rintro rfl; exact .red (.black hn hsl) (.black ha hd)
        · rintro rfl; exact .black (.black hn hsl) (.black ha hd)
    · left
      have hsl := hsl.of_red hl
      have hsr := hsr.of_not_red hr
      cases hsl with
      | @red _ a b d ha hd =>
        refine ⟨.node c (.node .black n v a) b (.node .black d sv sr), ?_, ?_, ?_⟩
        · simp [fixLeft, hl, hr, rotateLeft, rotateRight]
        · rintro rfl; exact .red (.black hn ha) (.black hd hsr)
        · rintro rfl; exact .black (.black hn ha) (.black hd hsr)
    · left
      have hsr := hsr.of_red hr
      cases hsr with
      | @red _ a b d ha hd =>
        refine ⟨.node c (.node .black n v sl) sv (.node .black a b d), ?_, ?_, ?_⟩
        · simp [fixLeft, hr, rotateLeft]
        · rintro rfl; exact .red (.black hn hsl) (.black ha hd)
        · rintro rfl; exact .black (.black hn hsl) (.black ha hd)

theorem fixRight_valid {n : Tree α} {h c v s cs} (hn : RB .black h n) (hs : RB cs (h + 1) s)
    (hs0 : isRed s = false) :
    (∃ t, fixRight s c v n = .ok (.done t) ∧
      (c = .red → RB .red (h + 1) t) ∧ (c = .black → RB .black (h + 2) t)) ∨
    (∃ s', fixRight s c v n = .ok (.up (.node c s' v n)) ∧ RB .red h s') := by
  have hs := hs.of_not_red hs0
  cases hs with
  | @black _ c1 c2 sl sv sr hsl hsr =>
    cases hl : isRed sl <;> cases hr : isRed sr
    · right
      exact ⟨.node .red sl sv sr, by simp [fixRight, hl, hr], .red (hsl.of_not_red hl) (hsr.of_not_red hr)⟩
    · left
      have hsr := hsr.of_red hr
      have hsl := hsl.of_not_red hl
      cases hsr with
      | @red _ a b d ha hd =>
        refine ⟨.node c (.node .black sl sv a) b (.node .black d v n), ?_, ?_, ?_⟩
        · simp [fixRight, hl, hr, rotateLeft, rotateRight]
        · rintro rfl; exact .red (.black hsl ha) (.black hd hn)
        · rintro rfl; exact .black (.black hsl ha) (.black hd hn)
    · left
      have hsl := hsl.of_red hl
      cases hsl with
      | @red _ a b d ha hd =>
        refine ⟨.node c (.node .black a b d) sv (.node .black sr v n), ?_, ?_, ?_⟩
        · simp [fixRight, hl, rotateRight]
        · rintro rfl; exact .red (.black ha hd) (.black hsr hn)
        · rintro rfl; exact .black (.black ha hd) (.black hsr hn)
    · left
      have hsl := hsl.of_red hl
      cases hsl with
      | @red _ a b d ha hd =>
        refine ⟨.node c (.node .black a b d) sv (.node .black sr v n), ?_, ?_, ?_⟩
        · simp [fixRight, hl, rotateRight]
        · rintro rfl; exact .red (.black ha hd) (.black hsr hn)
        · rintro rfl; exact .black (.black ha hd) (.black hsr hn)

theorem headBlack_of_red {f : Frame α} {p : Path α} {h} (hp : Ctx (f :: p) h) (hf : f.color = .red) :
    headBlack p := by
  cases hp with
  | lb => simp [Frame.color] at hf
  | rb => simp [Frame.color] at hf
  | lr _ _ hb => exact hb
  | rr _ _ hb => exact hb

theorem removeFixup_valid (n : Tree α) (p : Path α) (h : Nat) (hn : RB .black h n)
    (hp : Ctx p (h + 1)) : ∃ t, removeFixup n p = .ok t ∧ Valid t := by
  induction p generalizing n h with
  | nil => exact ⟨_, rfl, valid_blacken hn⟩
  | cons f rest ih =>
    -- the sibling is not red
    have keyL : ∀ c v s (cs : Color), f = .L c v s → RB cs (h + 1) s → isRed s = false →
        ∃ t, removeFixup n (f :: rest) = .ok t ∧ Valid t := by
      rintro c v s cs rfl hs hs0
      have e : removeFixup n (.L c v s :: rest) = (fixLeft n c v s).bind fun
        | .done t => .ok (blacken (zip t rest))
        | .up t   => if c = .red then .ok (zip (blacken t) rest) else removeFixup t rest := by
        cases s with
        | nil => rfl
        | node sc _ _ _ => cases sc; · simp [isRed] at hs0
                           · rfl
      rw [e]
      rcases fixLeft_valid (c := c) (v := v) hn hs hs0 with ⟨t, h1, h2, h3⟩ | ⟨s', h1, h2⟩
      · rw [h1]; simp only [Res.bind_ok]
        cases c with
        | red =>
          have hb := headBlack_of_red hp rfl
          cases hp with
          | lr _ hp _ =>
            have := zip_any hp hb (h2 rfl)
            exact ⟨_, by rw [zip_blacken_valid this], this⟩
        | black =>
          cases hp with
          | lb _ hp =>
            have := zip_black hp (h3 rfl)
            exact ⟨_, by rw [zip_blacken_valid this], this⟩
      · rw [h1]; simp only [Res.bind_ok]
        cases c with
        | red =>
          simp only [if_true]
          cases hp with
          | lr _ hp _ => exact ⟨_, rfl, zip_black hp (.black hn h2)⟩
        | black =>
          cases hp with
          | lb _ hp =>
            simp only [reduceCtorEq, if_false]
            exact ih _ _ (.black hn h2) hp
    have keyR : ∀ c v s (cs : Color), f = .R c s v → RB cs (h + 1) s → isRed s = false →
        ∃ t, removeFixup n (f :: rest) = .ok t ∧ Valid t := by
      rintro c v s cs rfl hs hs0
      have e : removeFixup n (.R c s v :: rest) = (fixRight s c v n).bind fun
        | .done t => .ok (blacken (zip t rest))
        | .up t   => if c = .red then .ok (zip (blacken t) rest) else removeFixup t rest := by
        cases s with
        | nil => rfl
        | node sc _ _ _ => cases sc; · simp [isRed] at hs0
                           · rfl
      rw [e]
      rcases fixRight_valid (c := c) (v := v) hn hs hs0 with ⟨t, h1, h2, h3⟩ | ⟨s', h1, h2⟩
      · rw [h1]; simp only [Res.bind_ok]
        cases c with
        | red =>
          have hb := headBlack_of_red hp rfl
          cases hp with
          | rr _ hp _ =>
            have := zip_any hp hb (h2 rfl)
            exact ⟨_, by rw [zip_blacken_valid this], this⟩
        | black =>
          cases hp with
          | rb _ hp =>
            have := zip_black hp (h3 rfl)
            exact ⟨_, by rw [zip_blacken_valid this], this⟩
      · rw [h1]; simp only [Res.bind_ok]
        cases c with
        | red =>
          simp only [if_true]
          cases hp with
          | rr _ hp _ => exact ⟨_, rfl, zip_black hp (.black h2 hn)⟩
        | black =>
          cases hp with
          | rb _ hp =>
            simp only [reduceCtorEq, if_false]
            exact ih _ _ (.black h2 hn) hp
    cases hp with
    | @lr _ v r _ hr hp hb => exact keyL _ _ _ _ rfl hr hr.not_red
    | @rr _ l v _ hl hp hb => exact keyR _ _ _ _ rfl hl hl.not_red
    | @lb _ c v s _ hs hp =>
      cases hred : isRed s with
      | false => exact keyL _ _ _ _ rfl hs hred
      | true =>
        have hs := hs.of_red hred
        cases hs with
        | @red _ sl sv sr hsl hsr =>
          simp only [removeFixup]
          rcases fixLeft_valid (c := .red) (v := v) hn hsl hsl.not_red with ⟨t, h1, h2, _⟩ | ⟨s', h1, h2⟩
          · rw [h1]; simp only [Res.bind_ok]
            have := zip_black hp (.black (v := sv) (h2 rfl) hsr)
            exact ⟨_, by rw [zip_blacken_valid this], this⟩
          · rw [h1]; simp only [Res.bind_ok]
            exact ⟨_, rfl, zip_black hp (.black (.black hn h2) hsr)⟩
    | @rb _ c s v _ hs hp =>
      cases hred : isRed s with
      | false => exact keyR _ _ _ _ rfl hs hred
      | true =>
        have hs := hs.of_red hred
        cases hs with
        | @red _ sl sv sr hsl hsr =>
          simp only [removeFixup]
          rcases fixRight_valid (c := .red) (v := v) hn hsr hsr.not_red with ⟨t, h1, h2, _⟩ | ⟨s', h1, h2⟩
          · rw [h1]; simp only [Res.bind_ok]
            have := zip_black hp (.black (v := sv) hsl (h2 rfl))
            exact ⟨_, by rw [zip_blacken_valid this], this⟩
          · rw [h1]; simp only [Res.bind_ok]
            exact ⟨_, rfl, zip_black hp (.black hsl (.black h2 hn))⟩

/-! ### Locations inside a valid tree -/

/-- Every location of a well formed tree has a well formed subtree and path. -/
def LocOk (x : Loc α) : Prop :=
  ∃ h, Ctx x.path h ∧
    ((x.c = .red ∧ RB .red h (.node x.c x.l x.v x.r) ∧ headBlack x.path) ∨
     (x.c = .black ∧ RB .black h (.node x.c x.l x.v x.r)))

/-- Converse of `zip_black`: the parts of a valid zipped tree are well formed. -/
theorem parts_of_zip {p : Path α} {t : Tree α} (hv : Valid (zip t p)) :
    ∃ c h, Ctx p h ∧ RB c h t ∧ (c = .red → headBlack p) := by
  induction p generalizing t with
  | nil => obtain ⟨h, hv⟩ := hv; exact ⟨.black, h, .nil, hv, by simp⟩
  | cons f p ih =>
    obtain ⟨c, h, hp, ht, hc⟩ := ih (t := f.plug t) hv
    cases f with
    | L fc v r =>
      simp only [Frame.plug] at ht
      cases ht with
      | red hl hr => exact ⟨.black, h, .lr hr hp (hc rfl), hl, by simp⟩
      | black hl hr => exact ⟨_, _, .lb hr hp, hl, fun _ => rfl⟩
    | R fc l v =>
      simp only [Frame.plug] at ht
      cases ht with
      | red hl hr => exact ⟨.black, h, .rr hl hp (hc rfl), hr, by simp⟩
      | black hl hr => exact ⟨_, _, .rb hl hp, hr, fun _ => rfl⟩

theorem set_left_valid {x : Loc α} {prel : Int} {v : α} (hx : Valid x.tree) (hl : x.l = .nil)
    (hp : prel > 0) : ∃ t, set (some x) prel v = .ok t ∧ Valid t := by
  obtain ⟨c, h, hc, ht, hb⟩ := parts_of_zip hx
  simp only [set]
  rw [if_neg (by omega), if_pos hp]
  rw [hl] at ht
  have hred : RB .red 0 (.node .red .nil v .nil) := .red .nil .nil
  generalize x.c = xc at ht ⊢
  cases ht with
  | red h1 h2 =>
    cases h1
    exact setFixup_valid _ _ 0 hred (.lr h2 hc (hb rfl))
  | black h1 h2 =>
    cases h1
    exact setFixup_valid _ _ 0 hred (.lb h2 hc)

theorem set_right_valid {x : Loc α} {prel : Int} {v : α} (hx : Valid x.tree) (hr : x.r = .nil)
    (hp : prel < 0) : ∃ t, set (some x) prel v = .ok t ∧ Valid t := by
  obtain ⟨c, h, hc, ht, hb⟩ := parts_of_zip hx
  simp only [set]
  rw [if_neg (by omega), if_neg (by omega)]
  rw [hr] at ht
  have hred : RB .red 0 (.node .red .nil v .nil) := .red .nil .nil
  generalize x.c = xc at ht ⊢
  cases ht with
  | red h1 h2 =>
    cases h2
    exact setFixup_valid _ _ 0 hred (.rr h1 hc (hb rfl))
  | black h1 h2 =>
    cases h2
    exact setFixup_valid _ _ 0 hred (.rb h1 hc)

theorem set_root_valid {prel : Int} {v : α} : ∃ t, set none prel v = .ok t ∧ Valid t :=
  ⟨_, rfl, ⟨1, .black .nil .nil⟩⟩

/-- `takeMin` from a well formed subtree. -/
theorem takeMin_ctx (c : Color) (l : Tree α) (v : α) (r : Tree α) (p : Path α) {cc h}
    (ht : RB cc h (.node c l v r)) (hp : Ctx p h) (hb : cc = .red → headBlack p) :
    ∃ cc' h', RB cc' h' (.node (takeMin c l v r p).1 .nil (takeMin c l v r p).2.1
        (takeMin c l v r p).2.2.1) ∧ Ctx (takeMin c l v r p).2.2.2 h' ∧
      (cc' = .red → headBlack (takeMin c l v r p).2.2.2) := by
  induction l generalizing c v r p cc h with
  | nil => exact ⟨cc, h, ht, hp, hb⟩
  | node c' l' v' r' ihl _ =>
    rw [takeMin]
    cases ht with
    | red hl hr => exact ihl c' v' r' _ hl (.lr hr hp (hb rfl)) (by simp)
    | black hl hr => exact ihl c' v' r' _ hl (.lb hr hp) (fun _ => rfl)

theorem takeMin_path (c : Color) (l : Tree α) (v : α) (r : Tree α) (p q : Path α) :
    takeMin c l v r (p ++ q) = ((takeMin c l v r p).1, (takeMin c l v r p).2.1,
      (takeMin c l v r p).2.2.1, (takeMin c l v r p).2.2.2 ++ q) := by
  induction l generalizing c v r p with
  | nil => rfl
  | node c' l' v' r' ihl _ =>
    rw [takeMin, takeMin, ← ihl c' v' r' (.L c v r :: p)]; rfl

/-- Removing a node whose remaining single child is `x`. -/
theorem unlink_valid {c : Color} {l : Tree α} {v : α} {r x : Tree α} {p : Path α} {cc h}
    (ht : RB cc h (.node c l v r)) (hp : Ctx p h) (hb : cc = .red → headBlack p)
    (hx : (l = .nil ∧ x = r) ∨ (r = .nil ∧ x = l)) :
    ∃ t, (if c = .red then Res.ok (zip x p)
      else if isRed x then Res.ok (zip (blacken x) p)
      else removeFixup x p) = .ok t ∧ Valid t := by
  cases ht with
  | red hl hr =>
    simp only [if_true]
    refine ⟨_, rfl, zip_black hp ?_⟩
    rcases hx with ⟨_, rfl⟩ | ⟨_, rfl⟩ <;> assumption
  | @black h c1 c2 _ _ _ hl hr =>
    simp only [reduceCtorEq, if_false]
    have hx : ∃ c', RB c' h x := by rcases hx with ⟨_, rfl⟩ | ⟨_, rfl⟩ <;> exact ⟨_, ‹_›⟩
    obtain ⟨c', hx⟩ := hx
    cases hred : isRed x with
    | true =>
      simp only [if_true]
      exact ⟨_, rfl, zip_black hp (hx.of_red hred).blacken_red⟩
    | false =>
      simp only [Bool.false_eq_true, if_false]
      exact removeFixup_valid _ _ _ (hx.of_not_red hred) hp

theorem remove_valid {n : Loc α} (hn : Valid n.tree) : ∃ t, remove n = .ok t ∧ Valid t := by
  obtain ⟨cc, h, hp, ht, hb⟩ := parts_of_zip hn
  obtain ⟨c, l, v, r, p⟩ := n
  simp only at hp ht hb
  cases l with
  | nil => simpa [remove] using unlink_valid ht hp hb (.inl ⟨rfl, rfl⟩)
  | node cl ll vl rl =>
    cases r with
    | nil => simpa [remove] using unlink_valid ht hp hb (.inr ⟨rfl, rfl⟩)
    | node cr lr vr rr =>
      simp only [remove]
      -- the successor x keeps the colour of n and moves to its place
      generalize hxe : takeMin cr lr vr rr [] = X
      obtain ⟨xc, xv, xr, inner⟩ := X
      have key : ∃ cc' h', RB cc' h' (.node xc .nil xv xr) ∧
          Ctx (inner ++ (.R c (.node cl ll vl rl) xv :: p)) h' ∧
          (cc' = .red → headBlack (inner ++ (.R c (.node cl ll vl rl) xv :: p))) := by
        have e := takeMin_path cr lr vr rr [] (.R c (.node cl ll vl rl) xv :: p)
        rw [hxe] at e
        simp only [List.nil_append] at e
        cases ht with
        | red hl hr =>
          have := takeMin_ctx cr lr vr rr (.R .red (.node cl ll vl rl) xv :: p) hr
            (.rr hl hp (hb rfl)) (by simp)
          rw [e] at this
          exact this
        | black hl hr =>
          have := takeMin_ctx cr lr vr rr (.R .black (.node cl ll vl rl) xv :: p) hr
            (.rb hl hp) (fun _ => rfl)
          rw [e] at this
          exact this
      obtain ⟨cc', h', k1, k2, k3⟩ := key
      exact unlink_valid k1 k2 k3 (.inl ⟨rfl, rfl⟩)

/-! ### Depth -/

theorem RB.depth_le {c h} {t : Tree α} (ht : RB c h t) :
    depth t ≤ 2 * h + (if c = .red then 1 else 0) := by
  induction ht with
  | nil => simp [depth]
  | red _ _ ih1 ih2 => simp [depth] at *; omega
  | black _ _ ih1 ih2 =>
    simp only [depth]
    split at ih1 <;> split at ih2 <;> simp <;> omega

theorem RB.size_ge {c h} {t : Tree α} (ht : RB c h t) : 2 ^ h ≤ (inorder t).length + 1 := by
  induction ht with
  | nil => simp
  | red _ _ ih1 ih2 => simp; omega
  | black _ _ ih1 ih2 => simp; rw [Nat.pow_succ]; omega

theorem Valid.depth_le {t : Tree α} (ht : Valid t) :
    depth t ≤ 2 * Nat.log2 ((inorder t).length + 1) := by
  obtain ⟨h, ht⟩ := ht
  have h1 := ht.depth_le
  have h2 := ht.size_ge
  have : h ≤ Nat.log2 ((inorder t).length + 1) := (Nat.le_log2 (by omega)).2 h2
  simp at h1; omega

/-! ### Search followed by insertion -/

/-- The signs of `f` along a list never go from positive (or zero) back to
zero or negative: the list is sorted with respect to the searched key. -/
def SignMono (f : α → Int) (l : List α) : Prop :=
  l.Pairwise fun a b => (f a > 0 → f b > 0) ∧ (f b < 0 → f a < 0) ∧
    (f a = 0 → f b > 0) ∧ (f b = 0 → f a < 0)

theorem SignMono.split {f : α → Int} {lo hi : List α} {v : α}
    (h : SignMono f (lo ++ v :: hi)) :
    (f v ≤ 0 → ∀ a ∈ lo, f a < 0) ∧ (f v ≥ 0 → ∀ a ∈ hi, f a > 0) := by
  unfold SignMono at h
  rw [List.pairwise_append] at h
  obtain ⟨_, h2, h3⟩ := h
  rw [List.pairwise_cons] at h2
  refine ⟨fun hv a ha => ?_, fun hv a ha => ?_⟩
  · have := h3 a ha v (by simp)
    by_cases h0 : f v = 0
    · exact this.2.2.2 h0
    · exact this.2.1 (by omega)
  · have := h2.1 a ha
    by_cases h0 : f v = 0
    · exact this.2.2.1 h0
    · exact this.1 (by omega)

/-- Complete description of a search in a sorted tree. -/
theorem get_spec {cmp : α → Res Int} {f : α → Int} {t : Tree α}
    (hcmp : ∀ a ∈ inorder t, cmp a = .ok (f a)) (hmono : SignMono f (inorder t)) :
    (t = .nil ∧ get cmp t [] = .ok none) ∨
    (∃ y : Loc α, get cmp t [] = .ok (some (f y.v, y)) ∧ y.tree = t ∧
      inorder t = y.lo ++ y.v :: y.hi ∧
      (f y.v ≤ 0 → ∀ a ∈ y.lo, f a < 0) ∧ (f y.v ≥ 0 → ∀ a ∈ y.hi, f a > 0) ∧
      (f y.v < 0 → y.r = .nil ∧ ∀ a ∈ y.hi, f a > 0) ∧
      (f y.v > 0 → y.l = .nil ∧ ∀ a ∈ y.lo, f a < 0)) := by
  obtain ⟨m, hm⟩ := get_ok (cmp := cmp) (t := t) [] (fun a ha => ⟨_, hcmp a ha⟩)
  cases m with
  | none => exact .inl ⟨get_none hm, hm⟩
  | some m =>
    obtain ⟨rc, y⟩ := m
    right
    obtain ⟨h1, h2⟩ := get_loc hm
    have h1 : y.tree = t := h1
    have hin : inorder t = y.lo ++ y.v :: y.hi := by rw [← h1, y.inorder_eq]
    have hrc : rc = f y.v := by
      have := hcmp y.v (by rw [hin]; simp)
      rw [h2] at this; simpa using this
    subst hrc
    obtain ⟨s1, s2⟩ := get_sides hcmp hmono hm
    rw [hin] at hmono
    obtain ⟨m1, m2⟩ := hmono.split
    refine ⟨y, hm, h1, hin, m1, m2, fun h => ?_, fun h => ?_⟩
    · obtain ⟨e1, hi, e2, e3⟩ := s1 h
      refine ⟨e1, ?_⟩; rw [e2]; simpa using e3
    · obtain ⟨e1, lo, e2, e3⟩ := s2 h
      refine ⟨e1, ?_⟩; rw [e2]; simpa using e3

/-- Insertion at the place the search ended keeps the tree valid and puts the
new element at its place. -/
theorem set_spec {f : α → Int} {t : Tree α} (hv : Valid t) {y : Loc α}
    (hy : y.tree = t)
    (hmono : SignMono f (inorder t))
    (hr : f y.v < 0 → y.r = .nil ∧ ∀ a ∈ y.hi, f a > 0)
    (hl : f y.v > 0 → y.l = .nil ∧ ∀ a ∈ y.lo, f a < 0)
    (h0 : f y.v ≠ 0) (x : α) :
    ∃ t' lo hi, set (some y) (f y.v) x = .ok t' ∧ Valid t' ∧
      inorder t = lo ++ hi ∧ inorder t' = lo ++ x :: hi ∧
      (∀ a ∈ lo, f a < 0) ∧ (∀ a ∈ hi, f a > 0) := by
  subst hy
  have hin := y.inorder_eq
  rw [hin] at hmono
  obtain ⟨m1, m2⟩ := hmono.split
  by_cases hneg : f y.v < 0
  · obtain ⟨e1, e2⟩ := hr hneg
    obtain ⟨t', h1, h2⟩ := set_right_valid (v := x) hv e1 hneg
    refine ⟨t', y.lo ++ [y.v], y.hi, h1, h2, by simp [hin], ?_, ?_, e2⟩
    · rw [set_right_inorder hneg h1]; simp [Loc.lo, Loc.hi, e1]
    · intro a ha; simp at ha; rcases ha with ha | rfl
      · exact m1 (by omega) a ha
      · exact hneg
  · have hpos : f y.v > 0 := by omega
    obtain ⟨e1, e2⟩ := hl hpos
    obtain ⟨t', h1, h2⟩ := set_left_valid (v := x) hv e1 hpos
    refine ⟨t', y.lo, y.v :: y.hi, h1, h2, by simp [hin], ?_, e2, ?_⟩
    · rw [set_left_inorder hpos h1]; simp [Loc.lo, Loc.hi, e1]
    · intro a ha; simp at ha; rcases ha with rfl | ha
      · exact hpos
      · exact m2 (by omega) a ha

/-! ### Iteration -/

theorem walkNext_eq (x : Loc α) : ∀ fuel, x.hi.length ≤ fuel → walkNext fuel x = x.hi := by
  intro fuel
  induction fuel generalizing x with
  | zero => intro h; simp [walkNext]; exact (List.length_eq_zero_iff.1 (by omega))
  | succ n ih =>
    intro h
    simp only [walkNext]
    split
    · next hn => rw [next_none hn]
    · next y hn =>
      obtain ⟨h1, h2⟩ := next_some hn
      have e1 := x.inorder_eq
      have e2 := y.inorder_eq
      rw [h1, e1, h2] at e2
      simp at e2
      rw [ih y (by rw [e2] at h; simp at h; omega), e2]

theorem walkPrev_eq (x : Loc α) :
    ∀ fuel, x.lo.length ≤ fuel → walkPrev fuel x = x.lo.reverse := by
  intro fuel
  induction fuel generalizing x with
  | zero => intro h; simp [walkPrev]; exact (List.length_eq_zero_iff.1 (by omega))
  | succ n ih =>
    intro h
    simp only [walkPrev]
    split
    · next hn => rw [prev_none hn]; rfl
    · next y hn =>
      obtain ⟨h1, h2⟩ := prev_some hn
      have e1 := x.inorder_eq
      have e2 := y.inorder_eq
      rw [h1, e1, h2] at e2
      have e3 : x.lo = y.lo ++ [y.v] := by
        have : (x.lo) ++ (x.v :: x.hi) = (y.lo ++ [y.v]) ++ (x.v :: x.hi) := by simpa using e2
        exact List.append_cancel_right this
      rw [ih y (by rw [e3] at h; simp at h; omega), e3]; simp

end Verif.Rb
