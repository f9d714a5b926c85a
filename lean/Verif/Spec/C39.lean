import Verif.Spec.C38

/-! C39: tiering moves the oldest partition of an over-full tier. -/
namespace Verif.C39
open Sto
open C38 (Placed Accurate total)

/-- A tier with its storage exceeds one of its limits. -/
def Over (s : Storage) (c : Sto.TierConfig) (now : Nat) : Prop :=
  (0 ≤ c.partitions ∧ c.partitions < s.parts.length) ∨
  (0 ≤ c.size ∧ c.size < total (·.size) s.parts) ∨
  (0 ≤ c.events ∧ c.events < total (·.events) s.parts) ∨
  (0 ≤ c.duration ∧ ∃ p ∈ s.parts, c.duration ≤ (now : Int) - p.timeCreate)

/-- No partition of the storage was created before this one. -/
def Oldest (s : Storage) (p : Part) : Prop := p ∈ s.parts ∧ ∀ q ∈ s.parts, p.timeCreate ≤ q.timeCreate

/-- The tiers with their storages. -/
def Tiers (db : Db) (l : List (Sto.TierConfig × Storage)) : Prop :=
  db.tiers.map (·.config) = l.map (·.1) ∧ db.tiers.map (·.storage) = l.map (·.2.uid) ∧ ∀ x ∈ l, x.2 ∈ db.storages

/-- Nothing to do for a tier: it is within its limits, or somebody works on its
oldest partition already. -/
def Skip (now : Nat) (x : Sto.TierConfig × Storage) : Prop :=
  ¬ Over x.2 x.1 now ∨ ∃ p, Oldest x.2 p ∧ p.refresh = true

/-- The choice among tiers: nothing if there is nothing to do for any, otherwise
the oldest partition of the first tier over a limit, for the storage of the next
tier, or to be dropped (empty name) if there is none. -/
def Choice (now : Nat) (l : List (Sto.TierConfig × Storage)) : Option (Nat × Bytes) → Prop
  | none => ∀ x ∈ l, Skip now x
  | some (min, target) =>
    ∃ before c s after p, l = before ++ (c, s) :: after ∧ (∀ x ∈ before, Skip now x) ∧ Over s c now ∧
      Oldest s p ∧ p.refresh = false ∧ min = p.min ∧
      target = (match after with
        | [] => []
        | n :: _ => n.2.name)

/-- The next action is the right one. -/
def Right (db : Db) (now : Nat) (l : List (Sto.TierConfig × Storage)) : Prop :=
  ∃ r db', rebalanceNext db now = .ok (r, db') ∧ Choice now l r

/-- Numbers in range: sums below 2^63 and times before now. -/
def Sane (db : Db) (now : Nat) : Prop :=
  now < 18446744073709551616 ∧
  (∀ t ∈ db.tiers, t.config.duration < 9223372036854775808) ∧
  ∀ s ∈ db.storages, total (·.size) s.parts < 9223372036854775808 ∧ total (·.events) s.parts < 9223372036854775808 ∧
    ∀ p ∈ s.parts, p.timeCreate ≤ now

/-- States that operations on partitions lead to (C38), from one with right
counters. -/
def Reached (db : Db) : Prop :=
  ∃ db0 ops, Placed db0 ∧ (∀ s ∈ db0.storages, Accurate s) ∧ (∀ op ∈ ops, C38.Listing op) ∧ C38.run db0 ops = db

/-- C39 in full: the right action in every state, and when rebalance has ended
all tiers are within their limits. -/
def Full : Prop :=
  (∀ db now l, Tiers db l → Sane db now → Reached db → Right db now l) ∧
  (∀ db now l file, Tiers db l → Sane db now → Reached db →
    ∃ fuel db' l', rebalance file now fuel db = .ok db' ∧ Tiers db' l' ∧ ∀ x ∈ l', ¬ Over x.2 x.1 now)

/-- No partition is marked as being worked on. -/
def Idle (db : Db) : Prop := ∀ s ∈ db.storages, ∀ p ∈ s.parts, p.refresh = false

end Verif.C39
