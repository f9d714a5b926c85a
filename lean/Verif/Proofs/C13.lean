import Verif.Spec.C13
import Verif.Proofs.Table

/-! Helper lemmas for C13. -/
namespace Verif.C13
open Spec

/-- Two lists related element by element. -/
def All2 {α β : Type} (R : α → β → Prop) : List α → List β → Prop
  | [], [] => True
  | a :: as, b :: bs => R a b ∧ All2 R as bs
  | _, _ => False

namespace All2
variable {α β γ : Type} {R S : α → β → Prop}

theorem mono (h : ∀ a b, R a b → S a b) : ∀ {as : List α} {bs : List β}, All2 R as bs → All2 S as bs
  | [], [], _ => trivial
  | _ :: _, _ :: _, ⟨h1, h2⟩ => ⟨h _ _ h1, mono h h2⟩

theorem append : ∀ {as as' : List α} {bs bs' : List β}, All2 R as bs → All2 R as' bs' →
    All2 R (as ++ as') (bs ++ bs')
  | [], _, [], _, _, h => h
  | _ :: _, _, _ :: _, _, ⟨h1, h2⟩, h => ⟨h1, append h2 h⟩

theorem length : ∀ {as : List α} {bs : List β}, All2 R as bs → as.length = bs.length
  | [], [], _ => rfl
  | _ :: _, _ :: _, ⟨_, h2⟩ => by simp [length h2]

theorem map_left {g : γ → α} : ∀ {cs : List γ} {bs : List β},
    All2 (fun c b => R (g c) b) cs bs → All2 R (cs.map g) bs
  | [], [], _ => trivial
  | _ :: _, _ :: _, ⟨h1, h2⟩ => ⟨h1, map_left h2⟩

theorem map_right {g : γ → β} : ∀ {as : List α} {cs : List γ},
    All2 (fun a c => R a (g c)) as cs → All2 R as (cs.map g)
  | [], [], _ => trivial
  | _ :: _, _ :: _, ⟨h1, h2⟩ => ⟨h1, map_right h2⟩

theorem of_map_right {g : γ → β} : ∀ {as : List α} {cs : List γ},
    All2 R as (cs.map g) → All2 (fun a c => R a (g c)) as cs
  | [], [], _ => trivial
  | _ :: _, _ :: _, ⟨h1, h2⟩ => ⟨h1, of_map_right h2⟩

theorem mono_mem {bs' : List β} (h : ∀ a b, b ∈ bs' → R a b → S a b) : ∀ {as : List α} {bs : List β},
    (∀ b ∈ bs, b ∈ bs') → All2 R as bs → All2 S as bs
  | [], [], _, _ => trivial
  | _ :: _, b :: bs, hb, ⟨h1, h2⟩ =>
    ⟨h _ _ (hb _ (by simp)) h1, mono_mem h (fun b hb' => hb b (by simp [hb'])) h2⟩

theorem and : ∀ {as : List α} {bs : List β}, All2 R as bs → All2 S as bs →
    All2 (fun a b => R a b ∧ S a b) as bs
  | [], [], _, _ => trivial
  | _ :: _, _ :: _, ⟨h1, h2⟩, ⟨h3, h4⟩ => ⟨⟨h1, h3⟩, and h2 h4⟩

theorem getElem? : ∀ {as : List α} {bs : List β}, All2 R as bs → ∀ (i : Nat) (a : α), as[i]? = some a →
    ∃ b, bs[i]? = some b ∧ R a b
  | [], [], _, _, _, h => by simp at h
  | _ :: _, b :: _, ⟨h1, _⟩, 0, _, h => by simp at h; subst h; exact ⟨b, by simp, h1⟩
  | _ :: _, _ :: _, ⟨_, h2⟩, i + 1, a, h => by simpa using getElem? h2 i a (by simpa using h)

end All2

variable {ι : Type}

theorem yields_head {f : IterFns ι} {it : ι} {L : List Event} (h : Yields f it L) :
    f.at' it = L.head? := by
  cases L with
  | nil => exact h
  | cons a L => exact h.1

/-- The flag of a reference is set exactly when its source shows the key of `m`. -/
def Flag (m : Event) (r : MergeRef ι) (L : List Event) : Prop :=
  r.advance = match L with | [] => false | a :: _ => a.pair == m.pair

theorem evCmp_lt_pair {a b : Event} (h : evCmp a b < 0) : (a.pair == b.pair) = false := by
  rw [beq_eq_false_iff_ne]; intro e
  rw [evCmp_eq.2 e] at h; omega

theorem evCmp_gt_pair {a b : Event} (h : evCmp a b < 0) : (b.pair == a.pair) = false := by
  rw [beq_eq_false_iff_ne]; intro e
  rw [evCmp_eq.2 e.symm] at h; omega

theorem le_of_head {a x : Event} {L : List Event} (h : Ascending (a :: L)) (hx : x ∈ a :: L) :
    evCmp a x ≤ 0 := by
  rcases List.mem_cons.1 hx with rfl | hx
  · rw [evCmp_refl]; omega
  · have := (List.pairwise_cons.1 h).1 x hx; omega

theorem evCmp_le_trans {a b c : Event} (h1 : evCmp a b ≤ 0) (h2 : evCmp b c ≤ 0) : evCmp a c ≤ 0 := by
  by_cases h3 : evCmp a b = 0
  · rw [evCmp_congr h3]; exact h2
  · by_cases h4 : evCmp b c = 0
    · rw [← evCmp_congr_right h4]; exact h1
    · have := evCmp_trans (a := a) (b := b) (c := c) (by omega) (by omega); omega

theorem evCmp_lt_le {a b c : Event} (h1 : evCmp a b < 0) (h2 : evCmp b c ≤ 0) : evCmp a c < 0 := by
  by_cases h4 : evCmp b c = 0
  · rw [← evCmp_congr_right h4]; exact h1
  · exact evCmp_trans h1 (by omega)

/-- State of the scan over the sources `done` with contents `Ds`. -/
def Best (f : IterFns ι) (done : List (MergeRef ι)) (Ds : List (List Event)) :
    Option (Nat × Event) → Prop
  | none => All2 (fun r L => Yields f r.it L ∧ r.advance = false ∧ L = []) done Ds
  | some (i, m) =>
    All2 (fun r L => Yields f r.it L ∧ Flag m r L) done Ds ∧
    (∃ r, done[i]? = some r ∧ f.at' r.it = some m) ∧
    (∀ x ∈ Ds.flatten, evCmp m x ≤ 0) ∧
    Ds.flatten.find? (fun a => a.pair == m.pair) = some m

theorem clear_all2 {R : ι → List Event → Prop} {l : List (MergeRef ι)} {Ls : List (List Event)}
    (h : All2 (fun r L => R r.it L) l Ls) :
    All2 (fun r L => R r.it L ∧ r.advance = false) (Merge.clear l) Ls := by
  unfold Merge.clear
  apply All2.map_left
  exact h.mono fun a b h => ⟨h, rfl⟩

attribute [local irreducible] compare

theorem pick_spec (mc : MemCmp) (f : IterFns ι) {base : Nat} :
    ∀ (todo : List (MergeRef ι)) (done : List (MergeRef ι)) (Ds Ts : List (List Event))
      (min : Option (Nat × Event)),
      All2 (fun r L => Yields f r.it L ∧ r.advance = false) todo Ts →
      (∀ L ∈ Ds ++ Ts, Ascending L ∧ ∀ e ∈ L, Window base e) →
      Best f done Ds min →
      Best f (Merge.pick mc f todo.length done todo min).1 (Ds ++ Ts)
        (Merge.pick mc f todo.length done todo min).2 := by
  intro todo
  induction hn : todo.length generalizing todo with
  | zero =>
    intro done Ds Ts min ht hw hb
    have : todo = [] := List.length_eq_zero_iff.1 hn
    subst this
    cases Ts with
    | nil => simpa [Merge.pick] using hb
    | cons => exact ht.elim
  | succ n ih =>
    intro done Ds Ts min ht hw hb
    cases todo with
    | nil => simp at hn
    | cons r todo =>
    cases Ts with
    | nil => exact ht.elim
    | cons L Ts =>
    obtain ⟨⟨hy, hf⟩, ht'⟩ := ht
    have hlen : todo.length = n := by simpa using hn
    have hsplit : Ds ++ L :: Ts = (Ds ++ [L]) ++ Ts := by simp
    have hLw := hw L (by simp)
    have hhead := yields_head hy
    have hw' : ∀ L' ∈ (Ds ++ [L]) ++ Ts, Ascending L' ∧ ∀ e ∈ L', Window base e := by
      rw [← hsplit]; exact hw
    rw [hsplit]
    cases L with
    | nil =>
      simp only [List.head?_nil] at hhead
      simp only [Merge.pick, hhead]
      refine ih todo hlen _ _ _ _ ht' hw' ?_
      cases min with
      | none => exact All2.append hb ⟨⟨hy, hf, rfl⟩, trivial⟩
      | some im =>
        obtain ⟨i, m⟩ := im
        obtain ⟨h1, ⟨r0, h2, h2'⟩, h3, h4⟩ := hb
        refine ⟨All2.append h1 ⟨⟨hy, hf⟩, trivial⟩, ⟨r0, ?_, h2'⟩, by simpa using h3, by simpa using h4⟩
        rw [List.getElem?_append_left]; exact h2
        exact (List.getElem?_eq_some_iff.1 h2).1
    | cons row L =>
      simp only [List.head?_cons] at hhead
      simp only [Merge.pick, hhead]
      cases min with
      | none =>
        refine ih todo hlen _ _ _ _ ht' hw' ?_
        have hnil : Ds.flatten = [] := by
          clear ih ht' hw' hw hsplit
          induction done generalizing Ds with
          | nil => cases Ds with | nil => rfl | cons => exact hb.elim
          | cons d done ih2 =>
            cases Ds with
            | nil => rfl
            | cons D Ds =>
              obtain ⟨⟨_, _, h0⟩, hb'⟩ := hb
              simp [h0, ih2 _ hb']
        refine ⟨All2.append (hb.mono fun a b ⟨k1, k2, k3⟩ => ⟨k1, by subst k3; exact k2⟩)
          ⟨⟨hy, by simp [Flag]⟩, trivial⟩, ⟨{ r with advance := true }, by simp, hhead⟩, ?_, ?_⟩
        · intro x hx
          simp only [List.flatten_append, hnil, List.nil_append, List.flatten_cons, List.flatten_nil,
            List.append_nil] at hx
          exact le_of_head hLw.1 hx
        · rw [List.flatten_append, hnil]; simp
      | some im =>
        obtain ⟨i, m⟩ := im
        have h1 := hb.1
        have h3 := hb.2.2.1
        have h4 := hb.2.2.2
        have h2 := hb.2.1.choose_spec.1
        have h2' := hb.2.1.choose_spec.2
        generalize hb.2.1.choose = r0 at h2 h2'
        have hm : m ∈ Ds.flatten := List.mem_of_find?_eq_some h4
        have hmw : Window base m := by
          obtain ⟨D, hD, hmD⟩ := List.mem_flatten.1 hm
          exact (hw D (by simp [hD])).2 m hmD
        have hrw : Window base row := hLw.2 row (by simp)
        have hsign := (compare_sign mc (a := m) (b := row)
          (by have := hmw.1; have := hrw.2; omega) (by have := hmw.2; have := hrw.1; omega)).1
        have hs := sign_neg_iff hsign (keyCmp_range _ _)
        have hsum : ∀ (d : List (MergeRef ι)), (∀ r', d[i]? = some r' → True) →
            (Ds ++ [row :: L]).flatten = Ds.flatten ++ (row :: L) := by intros; simp
        have hflat : (Ds ++ [row :: L]).flatten = Ds.flatten ++ (row :: L) := by simp
        dsimp only
        by_cases hc0 : compare mc m row = 0
        · rw [if_pos hc0]
          have hz : evCmp m row = 0 := hs.2.1.1 hc0
          refine ih todo hlen _ _ _ _ ht' hw' ⟨All2.append h1 ⟨⟨hy, ?_⟩, trivial⟩, ⟨r0, ?_, h2'⟩, ?_, ?_⟩
          · have := evCmp_eq.1 hz
            simp [Flag, this]
          · rw [List.getElem?_append_left]; exact h2
            exact (List.getElem?_eq_some_iff.1 h2).1
          · rw [hflat]; intro x hx
            rcases List.mem_append.1 hx with hx | hx
            · exact h3 x hx
            · rw [evCmp_congr hz]; exact le_of_head hLw.1 hx
          · rw [hflat, List.find?_append, h4]; rfl
        · rw [if_neg hc0]
          by_cases hc1 : compare mc m row > 0
          · rw [if_pos hc1]
            have hgt : evCmp row m < 0 := by
              have := hs.2.2.1 hc1
              have h5 := evCmp_swap row m
              have h6 : evCmp m row > 0 := this
              omega
            have hcl : (Merge.clear todo).length = n := by simp [Merge.clear, hlen]
            refine ih _ hcl _ _ _ _ ?_ hw' ⟨All2.append ?_ ⟨⟨hy, ?_⟩, trivial⟩, ⟨{ r with advance := true }, ?_, hhead⟩, ?_, ?_⟩
            · exact clear_all2 (R := Yields f) (ht'.mono fun a b h => h.1)
            · have hcd := clear_all2 (R := Yields f) (h1.mono fun a b h => h.1)
              refine All2.mono_mem (bs' := Ds) ?_ (fun b hb => hb) hcd
              rintro a b hbm ⟨k1, k2⟩
              refine ⟨k1, ?_⟩
              cases b with
              | nil => exact k2
              | cons x b =>
                have hx : x ∈ Ds.flatten := List.mem_flatten.2 ⟨_, hbm, by simp⟩
                have := evCmp_gt_pair (evCmp_lt_le hgt (h3 x hx))
                simp [Flag, k2, this]
            · simp [Flag]
            · have : (Merge.clear done).length = done.length := by simp [Merge.clear]
              rw [List.getElem?_append_right (by omega)]
              simp [this]
            · rw [hflat]; intro x hx
              rcases List.mem_append.1 hx with hx | hx
              · have := evCmp_lt_le hgt (h3 x hx); omega
              · exact le_of_head hLw.1 hx
            · rw [hflat, List.find?_append]
              have : Ds.flatten.find? (fun a => a.pair == row.pair) = none := by
                rw [List.find?_eq_none]; intro x hx
                have := evCmp_gt_pair (evCmp_lt_le hgt (h3 x hx))
                simp [this]
              rw [this]; simp
          · rw [if_neg hc1]
            have hlt : evCmp m row < 0 := hs.1.1 (by omega)
            refine ih todo hlen _ _ _ _ ht' hw' ⟨All2.append h1 ⟨⟨hy, ?_⟩, trivial⟩, ⟨r0, ?_, h2'⟩, ?_, ?_⟩
            · simp [Flag, hf, evCmp_gt_pair hlt]
            · rw [List.getElem?_append_left]; exact h2
              exact (List.getElem?_eq_some_iff.1 h2).1
            · rw [hflat]; intro x hx
              rcases List.mem_append.1 hx with hx | hx
              · exact h3 x hx
              · have := evCmp_lt_le hlt (le_of_head hLw.1 hx); omega
            · rw [hflat, List.find?_append, h4]; rfl

/-- The references of a merge in progress: sources with contents `Ls`, of which
the flagged ones still have to be advanced. -/
def Pending (f : IterFns ι) (list : List (MergeRef ι)) (Ls : List (List Event)) : Prop :=
  All2 (fun r L => if r.advance then ∃ a, Yields f r.it (a :: L) else Yields f r.it L) list Ls

theorem advanceAll_spec (f : IterFns ι) : ∀ (list : List (MergeRef ι)) (Ls : List (List Event)),
    Pending f list Ls →
    ∃ list', Merge.advanceAll f list = .ok list' ∧
      All2 (fun r L => Yields f r.it L ∧ r.advance = false) list' Ls
  | [], [], _ => ⟨[], rfl, trivial⟩
  | r :: list, L :: Ls, ⟨h1, h2⟩ => by
    obtain ⟨list', e, h3⟩ := advanceAll_spec f list Ls h2
    by_cases ha : r.advance
    · dsimp only at h1
      rw [if_pos ha] at h1
      obtain ⟨a, _, it', hn, hy⟩ := h1
      refine ⟨⟨it', false⟩ :: list', ?_, ⟨hy, rfl⟩, h3⟩
      simp [Merge.advanceAll, ha, hn, e]
    · dsimp only at h1
      rw [if_neg ha] at h1
      refine ⟨r :: list', ?_, ⟨h1, by simpa using ha⟩, h3⟩
      simp [Merge.advanceAll, ha, e]

theorem filter_head {m : Event} {L : List Event} (h : Ascending L) (hm : ∀ x ∈ L, evCmp m x ≤ 0) :
    L.filter (fun a => a.pair != m.pair) =
      match L with | [] => [] | a :: L' => if a.pair == m.pair then L' else a :: L' := by
  cases L with
  | nil => rfl
  | cons a L =>
    have ha := hm a (by simp)
    have htail : L.filter (fun a => a.pair != m.pair) = L := by
      rw [List.filter_eq_self]
      intro x hx
      have := evCmp_gt_pair (evCmp_le_lt ha ((List.pairwise_cons.1 h).1 x hx))
      simp [bne, this]
    dsimp only
    by_cases he : a.pair = m.pair
    · simp [he, htail]
    · simp [he, htail]
where
  evCmp_le_lt {a b c : Event} (h1 : evCmp a b ≤ 0) (h2 : evCmp b c < 0) : evCmp a c < 0 := by
    by_cases h3 : evCmp a b = 0
    · rw [evCmp_congr h3]; exact h2
    · exact evCmp_trans (by omega) h2

theorem pending_after (f : IterFns ι) {m : Event} : ∀ {list : List (MergeRef ι)} {Ls : List (List Event)},
    All2 (fun r L => Yields f r.it L ∧ Flag m r L) list Ls →
    (∀ L ∈ Ls, Ascending L) → (∀ x ∈ Ls.flatten, evCmp m x ≤ 0) →
    Pending f list (Ls.map (List.filter fun a => a.pair != m.pair))
  | [], [], _, _, _ => trivial
  | r :: list, L :: Ls, ⟨⟨h1, h2⟩, h3⟩, ha, hm => by
    refine ⟨?_, pending_after f h3 (fun L hL => ha L (by simp [hL])) (fun x hx => hm x (by
      simp only [List.flatten_cons, List.mem_append]; exact .inr hx))⟩
    rw [filter_head (ha L (by simp)) (fun x hx => hm x (by simp [hx]))]
    unfold Flag at h2
    cases L with
    | nil => simp only at h2; simp [h2]; exact h1
    | cons a L =>
      simp only at h2
      by_cases he : a.pair == m.pair
      · rw [he] at h2; simp only [h2, he, if_true]; exact ⟨a, h1⟩
      · have : (a.pair == m.pair) = false := by simpa using he
        rw [this] at h2; simp only [h2, this]; exact h1

theorem next_spec (mc : MemCmp) (f : IterFns ι) {base : Nat} {m : Merge ι} {Ls : List (List Event)}
    (hp : Pending f m.list Ls) (hw : ∀ L ∈ Ls, Ascending L ∧ ∀ e ∈ L, Window base e) :
    ∃ m', Merge.next mc f m = .ok m' ∧
      (Ls.flatten = [] ∧ m'.has = false ∨
       ∃ e, m'.has = true ∧ m'.at' f = .ok (some e) ∧
        Ls.flatten.find? (fun a => a.pair == e.pair) = some e ∧ (∀ x ∈ Ls.flatten, evCmp e x ≤ 0) ∧
        Pending f m'.list (Ls.map (List.filter fun a => a.pair != e.pair))) := by
  obtain ⟨list', e1, h1⟩ := advanceAll_spec f m.list Ls hp
  have hb := pick_spec mc f (base := base) list' [] [] Ls none h1 (by simpa using hw) trivial
  unfold Merge.next
  rw [e1, Res.bind_ok]
  generalize Merge.pick mc f list'.length [] list' none = pr at hb ⊢
  obtain ⟨l2, min⟩ := pr
  refine ⟨_, rfl, ?_⟩
  rw [List.nil_append] at hb
  cases min with
  | none =>
    left
    refine ⟨?_, rfl⟩
    clear hw hp h1 e1
    dsimp only [Best] at hb
    induction l2 generalizing Ls with
    | nil => cases Ls with | nil => rfl | cons => exact hb.elim
    | cons r l2 ih =>
      cases Ls with
      | nil => exact hb.elim
      | cons L Ls =>
        obtain ⟨⟨_, _, h0⟩, hb'⟩ := hb
        simp only [List.flatten_cons, h0, List.nil_append]
        exact ih hb'
  | some im =>
    obtain ⟨i, e⟩ := im
    obtain ⟨h2, ⟨r, h3, h4⟩, h5, h6⟩ := hb
    right
    refine ⟨e, rfl, ?_, h6, h5, pending_after f h2 (fun L hL => (hw L hL).1) h5⟩
    dsimp only at h3
    simp [Merge.at', h3, h4]

theorem merged_cons {Ls : List (List Event)} {e : Event} {M : List Event}
    (h1 : Ls.flatten.find? (fun a => a.pair == e.pair) = some e)
    (h2 : ∀ x ∈ Ls.flatten, evCmp e x ≤ 0)
    (h3 : Merged (Ls.map (List.filter fun a => a.pair != e.pair)) M) : Merged Ls (e :: M) := by
  obtain ⟨ha, hm⟩ := h3
  have hfl : (Ls.map (List.filter fun a => a.pair != e.pair)).flatten =
      Ls.flatten.filter (fun a => a.pair != e.pair) := by
    rw [List.filter_flatten]
  rw [hfl] at hm
  refine ⟨List.pairwise_cons.2 ⟨fun x hx => ?_, ha⟩, fun x => ?_⟩
  · have := List.mem_of_find?_eq_some ((hm x).1 hx)
    rw [List.mem_filter] at this
    have h4 := h2 x this.1
    have h5 : evCmp e x ≠ 0 := fun h => by
      have := evCmp_eq.1 h
      simp_all
    omega
  · rw [List.mem_cons, hm x]
    by_cases hxe : x.pair = e.pair
    · rw [hxe, h1]
      constructor
      · rintro (rfl | h)
        · rfl
        · have := List.mem_of_find?_eq_some h
          rw [List.mem_filter] at this
          simp [hxe] at this
      · intro h; left; exact (Option.some.inj h).symm
    · have : x ≠ e := fun h => hxe (by rw [h])
      rw [List.find?_filter]
      have heq : (fun a : Event => decide ((a.pair != e.pair) = true ∧ (a.pair == x.pair) = true)) =
          fun a => a.pair == x.pair := by
        funext a
        by_cases h : a.pair = x.pair
        · simp [h, hxe]
        · simp [h]
      rw [heq]
      constructor
      · rintro (h | h)
        · exact absurd h this
        · exact h
      · exact .inr

theorem drain_spec (mc : MemCmp) (f : IterFns ι) {base : Nat} :
    ∀ (n : Nat) (m : Merge ι) (Ls : List (List Event)), Ls.flatten.length ≤ n →
      Pending f m.list Ls → (∀ L ∈ Ls, Ascending L ∧ ∀ e ∈ L, Window base e) →
      ∃ M, Merged Ls M ∧ ∀ fuel, Ls.flatten.length ≤ fuel →
        (Merge.next mc f m).bind (Merge.drain mc f fuel) = .ok M := by
  intro n
  induction n with
  | zero =>
    intro m Ls hn hp hw
    have hnil : Ls.flatten = [] := List.length_eq_zero_iff.1 (by omega)
    obtain ⟨m', e1, h⟩ := next_spec mc f hp hw
    rcases h with ⟨_, h⟩ | ⟨e, _, _, h, _⟩
    · refine ⟨[], ⟨List.Pairwise.nil, by simp [hnil]⟩, fun fuel _ => ?_⟩
      rw [e1, Res.bind_ok]
      cases fuel <;> simp [Merge.drain, h]
    · rw [hnil] at h; simp at h
  | succ n ih =>
    intro m Ls hn hp hw
    obtain ⟨m', e1, h⟩ := next_spec mc f hp hw
    rcases h with ⟨hnil, h⟩ | ⟨e, hh, hat, hfind, hle, hp'⟩
    · refine ⟨[], ⟨List.Pairwise.nil, by simp [hnil]⟩, fun fuel _ => ?_⟩
      rw [e1, Res.bind_ok]
      cases fuel <;> simp [Merge.drain, h]
    · have hmem := List.mem_of_find?_eq_some hfind
      have hlen : (Ls.map (List.filter fun a => a.pair != e.pair)).flatten.length < Ls.flatten.length := by
        rw [← List.filter_flatten]
        have : Ls.flatten.filter (fun a => a.pair != e.pair) ≠ Ls.flatten := fun h => by
          rw [List.filter_eq_self] at h
          simpa using h e hmem
        have h1 := List.length_filter_le (fun a => a.pair != e.pair) Ls.flatten
        have h2 : (Ls.flatten.filter (fun a => a.pair != e.pair)).length ≠ Ls.flatten.length := fun h =>
          this (List.length_filter_eq_length_iff.1 h |> List.filter_eq_self.2)
        omega
      obtain ⟨M, hM, hd⟩ := ih m' _ (by omega) hp' (by
        intro L hL
        obtain ⟨L0, hL0, rfl⟩ := List.mem_map.1 hL
        exact ⟨List.Pairwise.filter _ (hw L0 hL0).1, fun x hx => (hw L0 hL0).2 x (List.mem_filter.1 hx).1⟩)
      refine ⟨e :: M, merged_cons hfind hle hM, fun fuel hf => ?_⟩
      rw [e1, Res.bind_ok]
      cases fuel with
      | zero => omega
      | succ fuel =>
        have := hd fuel (by omega)
        simp only [Merge.drain, hh, if_true, hat, Res.bind_ok]
        rw [Res.bind_eq_ok] at this
        obtain ⟨m2, h5, h6⟩ := this
        rw [h5, Res.bind_ok, h6, Res.bind_ok]

theorem pending_init {f : IterFns ι} : ∀ {its : List ι} {Ls : List (List Event)}, Sources f its Ls →
    Pending f (its.map fun it => ⟨it, false⟩) Ls
  | [], [], _ => trivial
  | _ :: _, _ :: _, ⟨h1, h2⟩ => ⟨by simpa using h1, pending_init h2⟩

theorem foldl_add (its : List ι) (m : Merge ι) :
    (its.foldl Merge.add m).list = m.list ++ its.map fun it => ⟨it, false⟩ := by
  induction its generalizing m with
  | nil => simp
  | cons it its ih => simp [ih, Merge.add]

end Verif.C13
