import Verif.Proofs.C03

/-! C03: a partition lookup returns the partition that covers the id. -/
namespace Verif.C03
open Spec

/-- Partial: after any legal history in which every added range is below 2^63
and starts less than 2^31 from its neighbours, every lookup of an id below 2^63
that is less than 2^31 from the neighbouring range starts is right (and no
operation aborts or has undefined behaviour).  Missing: ranges and ids outside
these limits, for which the property fails (see below). -/
theorem C03_partition_lookup_partial {β : Type} (ops : List (Op β))
    (hleg : Legal (fun S s => s.max < 9223372036854775808 ∧ Near S s.min) [] ops) :
    ∃ m, run Mapping.init ops = .ok m ∧
      ∀ id < 9223372036854775808, Near (refRun [] ops) id → LooksUp m (refRun [] ops) id := by
  obtain ⟨m, L, h1, h2, h3⟩ := run_inv ops Mapping.init [] [] Mapping.inv_init (by simp) hleg
  refine ⟨m, h1, fun id hid hn => ⟨?_, ?_⟩⟩
  · obtain ⟨r, e1, e2, _⟩ := Mapping.match_spec h2 id hid (near_congr h3 hn)
    exact ⟨r, e1, isMatch_congr h3 e2⟩
  · obtain ⟨r, e1, e2, _⟩ := Mapping.gte_spec h2 id hid (near_congr h3 hn)
    exact ⟨r, e1, isGte_congr h3 e2⟩

/-- The partitions that writes of ids 1, 2148000001 and 2151000001 create with
the default interval of 3000000. -/
def farOps : List (Op Nat) :=
  [.add ⟨0, 2999999, 0⟩, .add ⟨2148000000, 2150999999, 1⟩, .add ⟨2151000000, 2153999999, 2⟩]

/-- The property is false of the code: with those three partitions the second
one cannot be found any more. -/
theorem C03_partition_lookup_false : ¬ Full Nat := by
  intro h
  obtain ⟨m, h1, h2⟩ := h farOps (by
    simp [farOps, Legal, refStep, Apart])
  have hm : run Mapping.init farOps =
      .ok ⟨.node .black (.node .red .nil ⟨2151000000, 2153999999, 2⟩ .nil) ⟨0, 2999999, 0⟩ .nil, 3⟩ := by
    rfl
  rw [hm] at h1
  cases h1
  obtain ⟨⟨r, h3, h4⟩, _⟩ := h2 2148000005 (by decide)
  have hr : (⟨.node .black (.node .red .nil ⟨2151000000, 2153999999, 2⟩ .nil)
      ⟨0, 2999999, 0⟩ .nil, 3⟩ : Mapping Nat).match 2148000005 = .ok none := by rfl
  rw [hr] at h3
  cases h3
  refine h4 ⟨2148000000, 2150999999, 1⟩ ?_ (by simp [Covers])
  simp [farOps, refRun, refStep]

/-- With two such partitions the lookup used by cursors does not see the second. -/
theorem C03_cursor_lookup_misses :
    ∃ m : Mapping Nat, run Mapping.init (farOps.take 2) = .ok m ∧ m.gte 3000000 = .ok none :=
  ⟨_, rfl, rfl⟩

/-- Partitions 2^32 apart make the second creation abort. -/
theorem C03_add_aborts :
    run (Mapping.init : Mapping Nat) [.add ⟨0, 9, 0⟩, .add ⟨4294967296, 4294967305, 1⟩] =
      .abort "mapping_add: assert(0)" := rfl

/-- Partitions on both sides of 2^63: undefined behaviour. -/
theorem C03_add_overflows :
    run (Mapping.init : Mapping Nat)
      [.add ⟨1, 9, 0⟩, .add ⟨9223372036854775808, 9223372036854775900, 1⟩] =
      .ub "compare_u64: signed overflow" := rfl

/-- The hypotheses are met by three contiguous default partitions, one of them
dropped. -/
example : ∃ m, run (Mapping.init : Mapping Nat)
      [.add ⟨3000000, 5999999, 0⟩, .add ⟨0, 2999999, 1⟩, .drop 3000000] = .ok m ∧
    LooksUp m [⟨0, 2999999, 1⟩] 77 := by
  obtain ⟨m, h1, h2⟩ := C03_partition_lookup_partial (β := Nat)
    [.add ⟨3000000, 5999999, 0⟩, .add ⟨0, 2999999, 1⟩, .drop 3000000]
    (by simp [Legal, refStep, Apart, Near])
  exact ⟨m, h1, h2 77 (by decide) (by simp [refRun, refStep, Near])⟩

end Verif.C03
