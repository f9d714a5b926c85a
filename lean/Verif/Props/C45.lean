import Verif.Proofs.C45

/-! C45: UUID text round trip. -/
namespace Verif.C45
open Uuid

/-- Partial: exact for all texts of at most 36 characters and all 2^128 uuids,
whatever the previous contents of the uuid.  Missing: longer texts, which are
accepted when their first 36 characters are a uuid (C45_uuid_text_false). -/
theorem C45_uuid_text_partial (s : List Nat) (hs : s.length ≤ 36) : ParsesExactly s := by
  intro self u hu
  by_cases hl : s.length < 36
  · constructor
    · intro h; simp [fromString, hl] at h
    · intro h
      have := congrArg List.length h
      rw [text_length, List.length_map] at this
      omega
  · obtain ⟨A, c1, s1, rfl, hA, h1⟩ := split_at 8 s (by omega)
    obtain ⟨B, c2, s2, rfl, hB, h2⟩ := split_at 4 s1 (by omega)
    obtain ⟨C, c3, s3, rfl, hC, h3⟩ := split_at 4 s2 (by omega)
    obtain ⟨D, c4, s4, rfl, hD, h4⟩ := split_at 4 s3 (by omega)
    obtain ⟨E, F, rfl, hE⟩ : ∃ E F, s4 = E ++ F ∧ E.length = 4 :=
      ⟨s4.take 4, s4.drop 4, (List.take_append_drop 4 s4).symm, by simp; simp at *; omega⟩
    have hF : F.length = 8 := by simp at *; omega
    simp only [fromString, if_neg hl]
    rw [List.take_of_length_le hs, parse36 A B C D E F c1 c2 c3 c4 self.bits hA hB hC hD hE hF]
    have hr := bits_range u
    constructor
    · intro h
      cases hvA : hexVal A 0 with
      | none => simp [hvA] at h
      | some a =>
      by_cases d1 : c1 = 45
      case neg => simp [hvA, d1] at h
      cases hvB : hexVal B 0 with
      | none => simp [hvA, hvB] at h
      | some b =>
      by_cases d2 : c2 = 45
      case neg => simp [hvA, hvB, d2] at h
      cases hvC : hexVal C 0 with
      | none => simp [hvA, hvB, hvC] at h
      | some c =>
      by_cases d3 : c3 = 45
      case neg => simp [hvA, hvB, hvC, d3] at h
      cases hvD : hexVal D 0 with
      | none => simp [hvA, hvB, hvC, hvD] at h
      | some d =>
      by_cases d4 : c4 = 45
      case neg => simp [hvA, hvB, hvC, hvD, d4] at h
      cases hvE : hexVal E 0 with
      | none => simp [hvA, hvB, hvC, hvD, hvE] at h
      | some e =>
      cases hvF : hexVal F 0 with
      | none => simp [hvA, hvB, hvC, hvD, hvE, hvF] at h
      | some f =>
      obtain ⟨ra, ta⟩ := (hexVal8 hA a).1 hvA
      obtain ⟨rb, tb⟩ := (hexVal4 hB b).1 hvB
      obtain ⟨rc, tc⟩ := (hexVal4 hC c).1 hvC
      obtain ⟨rd, td⟩ := (hexVal4 hD d).1 hvD
      obtain ⟨re, te⟩ := (hexVal4 hE e).1 hvE
      obtain ⟨rf, tf⟩ := (hexVal8 hF f).1 hvF
      rw [hvA, hvB, hvC, hvD, hvE, hvF] at h
      simp only [Option.bind_some, d1, d2, d3, d4, ne_eq, not_true, if_false,
        Nat.mod_eq_of_lt ra, Nat.mod_eq_of_lt rb, Nat.mod_eq_of_lt rc, Nat.mod_eq_of_lt rd,
        Nat.mod_eq_of_lt re, Nat.mod_eq_of_lt rf] at h
      have hx := (bits_inj (x := ⟨a, b, c, d, e, f⟩) hu ra rb rc rd re rf).1 (Option.some.inj h)
      subst d1 d2 d3 d4
      simp only [List.map_append, List.map_cons, ta, tb, tc, td, te, tf, text, ← hx]
      rfl
    · intro h
      simp only [List.map_append, List.map_cons, text] at h
      obtain ⟨ta, h⟩ := List.append_inj h (by simp [hexPad_length, hA])
      obtain ⟨d1, h⟩ := List.cons.inj h
      obtain ⟨tb, h⟩ := List.append_inj h (by simp [hexPad_length, hB])
      obtain ⟨d2, h⟩ := List.cons.inj h
      obtain ⟨tc, h⟩ := List.append_inj h (by simp [hexPad_length, hC])
      obtain ⟨d3, h⟩ := List.cons.inj h
      obtain ⟨td, h⟩ := List.append_inj h (by simp [hexPad_length, hD])
      obtain ⟨d4, h⟩ := List.cons.inj h
      obtain ⟨te, tf⟩ := List.append_inj h (by simp [hexPad_length, hE])
      rw [lower_dash] at d1 d2 d3 d4
      rw [(hexVal8 hA _).2 ⟨hr.1, ta⟩, (hexVal4 hB _).2 ⟨hr.2.1, tb⟩, (hexVal4 hC _).2 ⟨hr.2.2.1, tc⟩,
        (hexVal4 hD _).2 ⟨hr.2.2.2.1, td⟩, (hexVal4 hE _).2 ⟨hr.2.2.2.2.1, te⟩,
        (hexVal8 hF _).2 ⟨hr.2.2.2.2.2, tf⟩]
      simp only [Option.bind_some, d1, d2, d3, d4, ne_eq, not_true, if_false,
        Nat.mod_eq_of_lt hr.1, Nat.mod_eq_of_lt hr.2.1, Nat.mod_eq_of_lt hr.2.2.1,
        Nat.mod_eq_of_lt hr.2.2.2.1, Nat.mod_eq_of_lt hr.2.2.2.2.1, Nat.mod_eq_of_lt hr.2.2.2.2.2]
      congr 1
      exact (bits_inj (x := u.bits) hu hr.1 hr.2.1 hr.2.2.1 hr.2.2.2.1 hr.2.2.2.2.1 hr.2.2.2.2.2).2 rfl

/-- Every uuid's text is read back, in lower or upper or mixed case. -/
theorem C45_round_trip (self u : Uuid) (hu : Legal u) (s : List Nat)
    (h : s.map lower = text u) : fromString self s = some u := by
  have hl : s.length = 36 := by
    have := congrArg List.length h
    rwa [text_length, List.length_map] at this
  exact (C45_uuid_text_partial s (by omega) self u hu).2 h

/-- Different uuids have different texts. -/
theorem C45_text_identifies (u v : Uuid) (hu : Legal u) (hv : Legal v) (h : text u = text v) :
    u = v := by
  have hlow : (text u).map lower = text u := by
    have h1 : ∀ d, d < 16 → lower (hexChar d) = hexChar d := by
      intro d hd; unfold lower hexChar; split <;> split at * <;> omega
    have h2 : ∀ w n, (hexPad w n).map lower = hexPad w n := by
      intro w n
      induction w with
      | zero => rfl
      | succ w ih => simp only [hexPad, List.map_cons, ih, h1 _ (Nat.mod_lt _ (by omega : 16 > 0))]
    simp only [text, List.map_append, List.map_cons, h2]
    rfl
  have h1 := C45_round_trip u u hu _ hlow
  have h2 := C45_round_trip u v hv (text u) (hlow.trans h)
  rw [h1] at h2
  exact Option.some.inj h2

/-- False of the code: a uuid text followed by other characters is accepted. -/
theorem C45_uuid_text_false : ¬ Full := by
  intro h
  have h1 := (h (text ⟨1, 2⟩ ++ [122]) ⟨0, 0⟩ ⟨1, 2⟩ (by simp [Legal])).1 (by decide +kernel)
  have := congrArg List.length h1
  simp [text_length] at this

example : text ⟨0x1122334455667788, 0x99aabbccddeeff00⟩ =
    "55667788-3344-1122-ff00-ddee99aabbcc".toList.map (·.toNat) := by decide +kernel

example : fromString ⟨7, 7⟩ ("55667788-3344-1122-FF00-DDEE99aabbCC".toList.map (·.toNat)) =
    some ⟨0x1122334455667788, 0x99aabbccddeeff00⟩ := by decide +kernel

end Verif.C45
