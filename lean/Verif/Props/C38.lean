import Verif.Spec.C38
import Verif.Proofs.C38

namespace Verif.C38
open Sto

/-- After any history the counters of every storage are the sums over its
partitions plus the files that were dropped from partitions that stay, since the
last restart. -/
theorem C38_counters (db : Db) (ops : List Op) (hp : Placed db) (ha : ∀ s ∈ db.storages, Accurate s)
    (hl : ∀ op ∈ ops, Listing op) :
    ∀ s ∈ (run db ops).storages, AccurateUpTo (lost db s.uid (0, 0) ops) s := by
  have h : Inv (fun _ => (0, 0)) db := by
    refine ⟨hp, fun s hs => ?_⟩
    obtain ⟨a, b, c⟩ := ha s hs
    exact ⟨a, by rw [b]; simp, by rw [c]; simp⟩
  exact (inv_run ops db _ h hl).2

/-- The number of partitions is always right. -/
theorem C38_partitions (db : Db) (ops : List Op) (hp : Placed db) (ha : ∀ s ∈ db.storages, Accurate s)
    (hl : ∀ op ∈ ops, Listing op) : ∀ s ∈ (run db ops).storages, s.listCount = s.parts.length :=
  fun s hs => (C38_counters db ops hp ha hl s hs).1

/-- What SHOW reports is right in every state, whatever the counters are. -/
theorem C38_show (s : Storage) : Reported s := by
  unfold Reported storage_show
  rw [show_total _ _ (by decide +kernel)]
  simp

theorem lost_noLoss : ∀ (ops : List Op) (db : Db) (u : Nat), NoLoss db ops → lost db u (0, 0) ops = (0, 0)
  | [], _, _, _ => rfl
  | op :: l, db, u, h => by
    have e : next db op (fun _ => (0, 0)) u = (0, 0) := by
      unfold next
      cases op <;> first | rfl | (simp only [h.1])
    have := lost_next db op l (fun _ => (0, 0)) u
    rw [this, e]
    exact lost_noLoss l _ u h.2

/-- C38 for histories in which no partition loses its last file and stays
(`Full` without that).  Missing: engine_drop_file removes the size of the
dropped file from the counters only after it has cleared the state, when the
removal does nothing. -/
theorem C38_partial (db : Db) (ops : List Op) (hp : Placed db) (ha : ∀ s ∈ db.storages, Accurate s)
    (hl : ∀ op ∈ ops, Listing op) (hn : NoLoss db ops) :
    ∀ s ∈ (run db ops).storages, Accurate s ∧ Reported s := by
  intro s hs
  obtain ⟨a, b, c⟩ := C38_counters db ops hp ha hl s hs
  rw [lost_noLoss ops db s.uid hn] at b c
  exact ⟨⟨a, by rw [b]; simp, by rw [c]; simp⟩, C38_show s⟩

/-- A storage with one partition of 100 bytes in 7 events. -/
def one : Db :=
  { storages := [{ uid := 1, name := [109], listCount := 1, size := 100, events := 7
                   parts := [{ min := 0, state := { id := true }, size := 100, events := 7 }] }] }

theorem one_ok : Placed one ∧ ∀ s ∈ one.storages, Accurate s := by
  constructor
  · exact ⟨List.pairwise_singleton _ _, by simp [one]⟩
  · intro s hs
    rw [List.mem_singleton.1 hs]
    exact ⟨rfl, by decide +kernel, by decide +kernel⟩

/-- After dropping a partition the counters still have its size. -/
theorem C38_false : ¬ Full := by
  intro h
  have := h one [.dropFile 0 false true true false false, .dropRef 0] one_ok.1 one_ok.2
    (by simp [Listing])
    { uid := 1, name := [109], listCount := 0, size := 100, events := 7, parts := [] } (by decide +kernel)
  have e := this.1.2.1
  revert e
  decide +kernel

/-- Two storages, three partitions. -/
example :
    let db : Db :=
      { storages := [{ uid := 1, name := [97], listCount := 2, size := 30, events := 3
                       parts := [{ min := 0, state := { id := true }, size := 10, events := 1 },
                                 { min := 5, state := { cloud := true }, size := 20, events := 2 }] },
                     { uid := 2, name := [98], listCount := 1, parts := [{ min := 9 }] }] }
    Placed db ∧ (∀ s ∈ db.storages, Accurate s) ∧
      NoLoss db [.refresh 0 (some [98]) 15 2 false, .dropRef 9, .create 7 100, .dropFile 5 false false true false false] := by
  intro db
  refine ⟨⟨by simp [db], by simp [db]⟩, ?_, ?_⟩
  · intro s hs
    simp only [db, List.mem_cons, List.not_mem_nil, or_false] at hs
    rcases hs with rfl | rfl
    · exact ⟨rfl, by decide +kernel, by decide +kernel⟩
    · exact ⟨rfl, by decide +kernel, by decide +kernel⟩
  · exact ⟨rfl, rfl, rfl, by decide +kernel, trivial⟩

/-- A restart with leftovers. -/
example : Listing (.restart
    (fun u => if u = 1 then [⟨0, { id := true }, 10, 1, 4⟩, ⟨5, { incomplete := true }, 0, 0, 0⟩] else [])
    (fun _ f => f.state.id) (fun _ f => f.state)) := by
  refine ⟨?_, ?_, ?_⟩
  · intro u; dsimp only; split <;> simp
  · intro u v h f hf _ g hg _
    dsimp only at hf hg
    split at hf
    · split at hg
      · omega
      · simp at hg
    · simp at hf
  · intro u f hf hk e
    dsimp only at hk e
    rw [e] at hk
    simp at hk

end Verif.C38
