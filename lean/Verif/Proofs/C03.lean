import Verif.Proofs.Mapping
import Verif.Spec.C03

/-! Helper lemmas for C03. -/
namespace Verif.C03
open Spec Mapping
variable {β : Type}

theorem near_congr {L S : List (Slice β)} (h : ∀ x, x ∈ L ↔ x ∈ S) {id : Nat}
    (hn : Near S id) : Near L id := by
  intro s hs
  have := hn s ((h s).1 hs)
  refine ⟨fun a b => this.1 a (fun u hu => b u ((h u).2 hu)),
    fun a b => this.2 a (fun u hu => b u ((h u).2 hu))⟩

theorem isMatch_congr {L S : List (Slice β)} (h : ∀ x, x ∈ L ↔ x ∈ S) {id : Nat} {r}
    (hm : IsMatch L id r) : IsMatch S id r := by
  cases r with
  | none => exact fun s hs => hm s ((h s).2 hs)
  | some s => exact ⟨(h s).1 hm.1, hm.2⟩

theorem isGte_congr {L S : List (Slice β)} (h : ∀ x, x ∈ L ↔ x ∈ S) {id : Nat} {r}
    (hm : IsGte L id r) : IsGte S id r := by
  cases r with
  | none => exact fun s hs => hm s ((h s).2 hs)
  | some s => exact ⟨(h s).1 hm.1, hm.2.1, fun u hu => hm.2.2 u ((h u).2 hu)⟩

theorem min_inj {L : List (Slice β)} (h : Sorted L) {a b : Slice β} (ha : a ∈ L) (hb : b ∈ L)
    (he : a.min = b.min) : a = b := by
  obtain ⟨lo, hi, rfl⟩ := List.append_of_mem ha
  have p := h.parts
  simp at hb
  rcases hb with hb | rfl | hb
  · have := p.1 b hb; omega
  · rfl
  · have := p.2.1 b hb; omega

theorem run_inv (ops : List (Op β)) :
    ∀ (m : Mapping β) (L S : List (Slice β)), Inv m L → (∀ x, x ∈ L ↔ x ∈ S) →
      Legal (fun S s => s.max < 9223372036854775808 ∧ Near S s.min) S ops →
      ∃ m' L', run m ops = .ok m' ∧ Inv m' L' ∧ (∀ x, x ∈ L' ↔ x ∈ refRun S ops) := by
  induction ops with
  | nil => intro m L S h1 h2 _; exact ⟨m, L, rfl, h1, h2⟩
  | cons o os ih =>
    intro m L S h1 h2 hleg
    cases o with
    | add s =>
      obtain ⟨l1, l2, l3, ⟨l4, l5⟩, l6⟩ := hleg
      obtain ⟨m1, lo, hi, e1, e2, e3, _, _⟩ :=
        add_spec h1 s l1 l4 (fun u hu => l3 u ((h2 u).1 hu)) (near_congr h2 l5)
      obtain ⟨m2, L2, k1, k2, k3⟩ := ih m1 _ (s :: S) e3 (by
        intro x
        rw [List.mem_append, List.mem_cons, List.mem_cons, ← h2, e2, List.mem_append]
        grind) l6
      exact ⟨m2, L2, by simp [run, step, e1, k1], k2, k3⟩
    | drop k =>
      obtain ⟨⟨u, hu, huk⟩, l2⟩ := hleg
      obtain ⟨m1, lo, v, hi, e1, e2, e3, _, e5⟩ :=
        remove_spec h1 (is := fun s => s.min == k) ⟨u, (h2 u).2 hu, by simp [huk]⟩
      obtain ⟨m2, L2, k1, k2, k3⟩ := ih m1 _ (refStep S (.drop k)) e5 (by
        intro x
        simp only [refStep, List.mem_filter]
        rw [← h2]
        have hv : v.min = k := by simpa using e3
        have hs := h1.sorted
        rw [e2] at hs ⊢
        have p := hs.parts
        simp only [List.mem_append, List.mem_cons, bne_iff_ne, ne_eq]
        constructor
        · rintro (hx | hx)
          · have := p.1 x hx; exact ⟨.inl hx, by omega⟩
          · have := p.2.1 x hx; exact ⟨.inr (.inr hx), by omega⟩
        · rintro ⟨hx | rfl | hx, hne⟩
          · exact .inl hx
          · exact absurd hv hne
          · exact .inr hx) l2
      exact ⟨m2, L2, by simp [run, step, e1, k1], k2, k3⟩

end Verif.C03
