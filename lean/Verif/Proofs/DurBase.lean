import Verif.Spec.Durable

/-! Helper lemmas: tables and versions. -/
namespace Verif.Dur
open Wal (Rec)

abbrev Key := Nat × List UInt8

theorem tget_tset (t : Table) (e : Event) (k : Key) :
    tget (tset t e) k = if e.pair = k then some e else tget t k := by
  unfold tget tset
  simp only [List.find?_cons]
  by_cases h : e.pair = k
  · simp [h]
  · rw [if_neg h, show (e.pair == k) = false by simpa using h]
    simp only
    rw [List.find?_filter]
    congr 1
    funext x
    by_cases hx : x.pair = k
    · simp only [hx, beq_self_eq_true, Bool.and_true, bne_iff_ne, ne_eq]
      simpa using fun h' => h h'.symm
    · simp [hx]

theorem lastOf_cons (e : Event) (es : List Event) (k : Key) :
    lastOf (e :: es) k = (lastOf es k).or (if e.pair = k then some e else none) := by
  unfold lastOf
  by_cases h : e.pair = k
  · rw [List.filter_cons_of_pos (by simpa using h), if_pos h, List.getLast?_cons]
    cases (es.filter fun x => x.pair == k).getLast? <;> rfl
  · rw [List.filter_cons_of_neg (by simpa using h), if_neg h]
    simp

theorem lastOf_append (a b : List Event) (k : Key) : lastOf (a ++ b) k = (lastOf b k).or (lastOf a k) := by
  unfold lastOf
  rw [List.filter_append, List.getLast?_append]

/-- The numbered events of a history. -/
def evs (H : List Rec) : List (Nat × Event) :=
  H.flatMap fun r => match r with
    | .write l _ es => es.map fun e => (l, e)
    | .drop _ _ => []

/-- The last event for a key among those with a number in `P`. -/
def vl (P : Nat → Bool) (xs : List (Nat × Event)) (k : Key) : Option Event :=
  ((xs.filter fun x => P x.1 && x.2.pair == k).getLast?).map (·.2)

theorem vl_append (P : Nat → Bool) (a b : List (Nat × Event)) (k : Key) :
    vl P (a ++ b) k = (vl P b k).or (vl P a k) := by
  unfold vl
  rw [List.filter_append, List.getLast?_append]
  cases (b.filter fun x => P x.1 && x.2.pair == k).getLast? <;> rfl

theorem vl_nil (P : Nat → Bool) (k : Key) : vl P [] k = none := rfl

theorem vl_single (P : Nat → Bool) (l : Nat) (e : Event) (k : Key) :
    vl P [(l, e)] k = if P l = true ∧ e.pair = k then some e else none := by
  unfold vl
  by_cases h : P l = true ∧ e.pair = k
  · rw [if_pos h, List.filter_cons_of_pos (by simp [h])]
    rfl
  · rw [if_neg h, List.filter_cons_of_neg (by simpa using h)]
    rfl

theorem vl_batch (P : Nat → Bool) (l : Nat) (es : List Event) (k : Key) :
    vl P (es.map fun e => (l, e)) k = if P l then lastOf es k else none := by
  unfold vl lastOf
  rw [List.filter_map, List.getLast?_map, Option.map_map]
  cases h : P l with
  | true =>
    simp only [if_true]
    have : ((fun x : Nat × Event => P x.1 && x.2.pair == k) ∘ fun e => (l, e)) = fun e => e.pair == k := by
      funext e; simp [h]
    rw [this]
    cases (es.filter fun e => e.pair == k).getLast? <;> rfl
  | false =>
    have : ((fun x : Nat × Event => P x.1 && x.2.pair == k) ∘ fun e => (l, e)) = fun e => false := by
      funext e; simp [h]
    rw [this]
    simp

/-- Nothing is found when no number is in `P` among the events of the key. -/
theorem vl_none {P : Nat → Bool} {xs : List (Nat × Event)} {k : Key}
    (h : ∀ x ∈ xs, x.2.pair = k → P x.1 = false) : vl P xs k = none := by
  unfold vl
  rw [List.filter_eq_nil_iff.2]
  · rfl
  · intro x hx
    by_cases hk : x.2.pair = k
    · simp [h x hx hk]
    · simp [hk]

/-- Only the numbers of the events of the key matter. -/
theorem vl_congr {P Q : Nat → Bool} {xs : List (Nat × Event)} {k : Key}
    (h : ∀ x ∈ xs, x.2.pair = k → P x.1 = Q x.1) : vl P xs k = vl Q xs k := by
  unfold vl
  have e : (xs.filter fun x => P x.1 && x.2.pair == k) = xs.filter fun x => Q x.1 && x.2.pair == k := by
    apply List.filter_congr
    intro x hx
    by_cases hk : x.2.pair = k
    · rw [h x hx hk]
    · have : (x.2.pair == k) = false := by simpa using hk
      rw [this, Bool.and_false, Bool.and_false]
  rw [e]

def Asc (xs : List (Nat × Event)) : Prop := xs.Pairwise fun a b => a.1 ≤ b.1

/-- Later numbers win over earlier ones. -/
theorem vl_split {xs : List (Nat × Event)} (hs : Asc xs) (P : Nat → Bool) (M : Nat) (k : Key) :
    vl P xs k = (vl (fun l => P l && decide (M < l)) xs k).or (vl (fun l => P l && decide (l ≤ M)) xs k) := by
  induction xs with
  | nil => rfl
  | cons x xs ih =>
    unfold Asc at hs
    rw [List.pairwise_cons] at hs
    have hc : ∀ Q : Nat → Bool, vl Q (x :: xs) k = (vl Q xs k).or (vl Q [x] k) := fun Q => vl_append Q [x] xs k
    rw [hc, hc, hc, ih hs.2]
    obtain ⟨l, e⟩ := x
    rw [vl_single, vl_single, vl_single]
    by_cases hl : M < l
    · -- everything after is above M
      have h2 : vl (fun l => P l && decide (l ≤ M)) xs k = none := by
        apply vl_none
        intro y hy _
        have := hs.1 y hy
        have h3 : ¬ y.1 ≤ M := by
          dsimp only at this
          omega
        simp [h3]
      rw [h2]
      have h3 : ¬ l ≤ M := by omega
      simp [hl, h3]
    · have h3 : l ≤ M := by omega
      simp [hl, h3, Option.or_assoc]

theorem evs_append (a b : List Rec) : evs (a ++ b) = evs a ++ evs b := by simp [evs]

theorem evs_write (l n : Nat) (es : List Event) : evs [.write l n es] = es.map fun e => (l, e) := by simp [evs]

def OnlyWrites (H : List Rec) : Prop := ∀ r ∈ H, ∃ l n es, r = .write l n es ∧ es ≠ [] ∧ 1 ≤ l

theorem version_vl (iv : Nat) (k : Key) : ∀ (H : List Rec), OnlyWrites H →
    version iv k H = vl (fun _ => true) (evs H) k := by
  intro H
  induction H with
  | nil => intro _; rfl
  | cons r H ih =>
    intro h
    obtain ⟨l, n, es, rfl, _, _⟩ := h r (by simp)
    have e1 : evs (.write l n es :: H) = (es.map fun e => (l, e)) ++ evs H := by simp [evs]
    rw [e1, vl_append, vl_batch]
    simp only [version]
    rw [ih fun r hr => h r (by simp [hr])]
    cases vl (fun _ => true) (evs H) k with
    | some e => rfl
    | none =>
      simp only [Option.none_or, if_true]
      rw [if_neg]
      intro hc
      obtain ⟨r', hr', hc⟩ := List.any_eq_true.1 hc
      obtain ⟨l, n, es, rfl, _, _⟩ := h r' (by simp [hr'])
      cases hc

theorem asc_evs : ∀ (H : List Rec), H.Pairwise (fun a b => a.lsn < b.lsn) → Asc (evs H) := by
  intro H
  induction H with
  | nil => intro _; simp [evs, Asc]
  | cons r H ih =>
    intro h
    rw [List.pairwise_cons] at h
    have : evs (r :: H) = evs [r] ++ evs H := evs_append [r] H
    rw [this]
    unfold Asc
    rw [List.pairwise_append]
    have hmem : ∀ (r : Rec) (x : Nat × Event), x ∈ evs [r] → x.1 = r.lsn := by
      intro r x hx
      cases r with
      | write l n es =>
        rw [evs_write] at hx
        obtain ⟨e, _, rfl⟩ := List.mem_map.1 hx
        rfl
      | drop l p => simp [evs] at hx
    refine ⟨?_, ih h.2, ?_⟩
    · rw [List.pairwise_iff_forall_sublist]
      intro a b hab
      have ha := hmem r a (hab.subset (by simp))
      have hb := hmem r b (hab.subset (by simp))
      omega
    · intro a ha b hb
      have h1 := hmem r a ha
      obtain ⟨r', hr', hb⟩ := List.mem_flatMap.1 hb
      have h2 := hmem r' b (by simpa [evs] using hb)
      have := h.1 r' hr'
      omega

theorem evs_lsn {H : List Rec} {x : Nat × Event} (h : x ∈ evs H) : ∃ r ∈ H, r.lsn = x.1 ∧ ∃ n es, r = .write x.1 n es ∧ x.2 ∈ es := by
  obtain ⟨r, hr, hx⟩ := List.mem_flatMap.1 h
  cases r with
  | write l n es =>
    obtain ⟨e, he, rfl⟩ := List.mem_map.1 hx
    exact ⟨_, hr, rfl, n, es, rfl, he⟩
  | drop l p => simp at hx

/-! Merging. -/

def live (o : Option Event) : Option Event := o.filter fun e => !e.isDelete

theorem tget_append (a b : Table) (k : Key) : tget (a ++ b) k = (tget a k).or (tget b k) := by
  unfold tget
  rw [List.find?_append]

theorem tget_filter_self (t : Table) (k : Key) :
    tget (t.filter fun e => tget t e.pair == some e && !e.isDelete) k = live (tget t k) := by
  cases h : tget t k with
  | none =>
    have : ∀ e ∈ t, e.pair ≠ k := by
      intro e he hk
      unfold tget at h
      have := List.find?_eq_none.1 h e he
      simp [hk] at this
    unfold tget
    rw [List.find?_eq_none.2]
    · rfl
    · intro e he
      have := this e ((List.mem_filter.1 he).1)
      simpa using this
  | some e0 =>
    have he0 : e0 ∈ t := List.mem_of_find?_eq_some h
    have hk0 : e0.pair = k := by
      have := List.find?_some h
      simpa using this
    by_cases hd : e0.isDelete
    · have hl : live (some e0) = none := by simp [live, hd]
      rw [hl]
      unfold tget
      rw [List.find?_eq_none]
      intro e he
      obtain ⟨he1, he2⟩ := List.mem_filter.1 he
      simp only [Bool.and_eq_true, beq_iff_eq] at he2
      intro hk
      simp only [beq_iff_eq] at hk
      have : tget t e.pair = some e := he2.1
      rw [hk, h] at this
      have := Option.some.inj this
      subst this
      simp [hd] at he2
    · have hl : live (some e0) = some e0 := by simp [live, hd]
      rw [hl]
      cases hf : tget (t.filter fun e => tget t e.pair == some e && !e.isDelete) k with
      | none =>
        unfold tget at hf
        have := List.find?_eq_none.1 hf e0 (List.mem_filter.2 ⟨he0, by
          simp only [Bool.and_eq_true, beq_iff_eq]
          exact ⟨by rw [hk0]; exact h, by simpa using hd⟩⟩)
        simp [hk0] at this
      | some e1 =>
        have h1 := List.mem_of_find?_eq_some hf
        have hk1 := List.find?_some hf
        simp only [beq_iff_eq] at hk1
        obtain ⟨_, h2⟩ := List.mem_filter.1 h1
        simp only [Bool.and_eq_true, beq_iff_eq] at h2
        rw [hk1, h] at h2
        exact h2.1.symm

theorem tget_merge (m f : Table) (k : Key) : tget (mergeTables m f) k = live ((tget m k).or (tget f k)) := by
  rw [← tget_append]
  exact tget_filter_self (m ++ f) k

theorem live_or_live (a b : Option Event) : live (a.or (live b)) = live (a.or b) := by
  cases a with
  | some e => rfl
  | none =>
    simp only [Option.none_or]
    cases b with
    | none => rfl
    | some e =>
      simp only [live, Option.filter_some]
      by_cases h : e.isDelete <;> simp [h]

end Verif.Dur
