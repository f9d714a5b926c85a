import Verif.Spec.C01
import Verif.Proofs.Key

/-! C01: event order. -/
namespace Verif.C01
open Spec

/-- The order of the specification is a total order on (id, key): three-way,
antisymmetric, transitive, and equal exactly on equal pairs. -/
theorem C01_spec_is_total_order :
    LawfulCmp keyCmp ∧ (∀ a b, keyCmp a b = 0 ↔ a = b) ∧
    (∀ a b, keyCmp a b < 0 ∨ a = b ∨ keyCmp b a < 0) := by
  refine ⟨keyCmp_lawful, fun a b => keyCmp_eq_zero, fun a b => ?_⟩
  rcases keyCmp_range a b with h | h | h
  · left; omega
  · right; left; exact keyCmp_eq_zero.1 h
  · right; right; have := keyCmp_swap a b; omega

/-- Partial: all comparisons agree with the specification for ids below 2^63
that are less than 2^31 apart.  Missing: ids further apart (the results are
narrowed to `int`) and ids from 2^63 on (signed subtraction). -/
theorem C01_event_order_partial (mc : MemCmp) (a b : Event) (ha : Legal a) (hb : Legal b)
    (ha' : a.id < 9223372036854775808) (hb' : b.id < 9223372036854775808)
    (h1 : (a.id : Int) - b.id < 2147483648) (h2 : (b.id : Int) - a.id < 2147483648) :
    AgreesOn mc a b :=
  ⟨(compare_sign mc (by omega) (by omega)).1,
   compareInt_sign mc (by omega) (by omega) ha.2 hb.2,
   _, compareU64_ok ha' hb', rfl⟩

/-- The comparison function itself (not narrowed; used by the merge) is right
for ids less than 2^63 apart. -/
theorem C01_compare_partial (mc : MemCmp) (a b : Event)
    (h1 : (a.id : Int) - b.id < 9223372036854775808)
    (h2 : (b.id : Int) - a.id ≤ 9223372036854775808) :
    (compare mc a b).sign = keyCmp a.pair b.pair :=
  (compare_sign mc (by omega) (by omega)).1

/-- The property is false of the code: ids 2^31 and 0 compare as "less" once
narrowed to int; 2^32 and 0 compare as equal; 2^63 and 0 compare as "less" even
before narrowing; and the partition index comparison overflows. -/
theorem C01_event_order_false (mc : MemCmp) : ¬ Full mc := by
  intro h
  have := h ⟨2147483648, 0, [], []⟩ ⟨0, 0, [], []⟩ (by simp [Legal]) (by simp [Legal])
  have h2 := this.2.1
  have e : compareInt mc ⟨2147483648, 0, [], []⟩ ⟨0, 0, [], []⟩ = -2147483648 := by
    simp [compareInt, compare]; decide
  rw [e] at h2
  revert h2; decide

theorem C01_ids_2_32_apart_compare_equal (mc : MemCmp) :
    compareInt mc ⟨4294967296, 0, [], []⟩ ⟨0, 0, [], []⟩ = 0 := by
  simp [compareInt, compare]; decide

theorem C01_compare_wraps (mc : MemCmp) :
    compare mc ⟨9223372036854775808, 0, [], []⟩ ⟨0, 0, [], []⟩ < 0 := by
  simp [compare]; decide

theorem C01_partition_compare_overflows :
    compareU64 9223372036854775808 1 = .ub "compare_u64: signed overflow" := by decide

/-- The hypotheses of the partial theorem are met by ordinary events. -/
example : AgreesOn memCmpStd ⟨5, 0, [1, 2], [7]⟩ ⟨5, 0, [1, 2, 0], []⟩ :=
  C01_event_order_partial _ _ _ (by simp [Legal]) (by simp [Legal]) (by decide) (by decide)
    (by decide) (by decide)

example : compare memCmpStd ⟨5, 0, [1, 2], [7]⟩ ⟨5, 0, [1, 2, 0], []⟩ = -1 := by decide

end Verif.C01
