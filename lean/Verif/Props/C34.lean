import Verif.Proofs.C34

/-! C34: typed binary values round trip. -/
namespace Verif.C34
open Data

/-- C34 for every value whose reals survive the conversion to `float` (or are
outside its range and stored as doubles): each is read back identically with
exactly its bytes consumed, skipping it ends at the same place, and the room
reserved for it is what it takes.  Missing from `Full`: reals that need more than
24 bits of precision, see `C34_real_exact_iff`. -/
theorem C34_round_trip_partial (v : Val) (h : Fits (fun d => ¬ NeedsDouble d) v) : RoundTrip v :=
  roundTrip (fun _ h => h) v h

example : RoundTrip (.map (.cons [105] (.int (-5)) (.cons [97] (.arr (.cons (.str [1, 2])
    (.cons (.real 0x3FF8000000000000) (.cons .null .nil)))) .nil))) :=
  C34_round_trip_partial _ (by simp [Fits, FitsMap, FitsAll, Maps.len, Vals.len, NeedsDouble])

/-- A real is read back with the same bits exactly when it is not one of the
doubles between FLT_MIN and FLT_MAX with more than 24 significant bits; sizes and
skipping are right for all reals. -/
theorem C34_real_exact_iff (d : Nat) (hd : d < 18446744073709551616) (rest : Bytes) :
    (Reads (.real d) (enc (.real d) ++ rest) rest ↔ ¬ NeedsDouble d) ∧
    data_skip (enc (.real d) ++ rest) = .ok rest ∧
    (enc (.real d)).length = reserved (.real d) := by
  refine ⟨?_, ?_, write_real_length d⟩
  · obtain ⟨d', h1, h2⟩ := read_real_value rest hd
    simp only [Reads, enc]
    rw [h1]
    simp only [Res.ok.injEq, Prod.mk.injEq, and_true]
    exact h2
  · simp only [data_skip, enc]
    rw [skip_real 0 rest hd, skipN]

example : ∃ d, d < 18446744073709551616 ∧ NeedsDouble d :=
  ⟨0x3FB999999999999A, by decide, by unfold NeedsDouble; decide⟩

/-- C34 is false of the code: 0.1 is stored as a float and comes back as
0.10000000149011612. -/
theorem C34_round_trip_false : ¬ Full := fun h => by
  have h1 := ((h (.real 0x3FB999999999999A) (by simp [Fits])).2.2 _ [] rfl).1
  have h2 := (C34_real_exact_iff 0x3FB999999999999A (by decide) []).1.1 h1
  exact h2 (by unfold NeedsDouble; decide)

/-- The bits that come back for 0.1. -/
theorem C34_tenth : data_read_real (enc (.real 0x3FB999999999999A)) = .ok (0x3FB99999A0000000, []) := by
  decide +kernel

end Verif.C34
