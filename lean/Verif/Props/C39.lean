import Verif.Spec.C39
import Verif.Proofs.C39

namespace Verif.C39
open Sto
open C38 (Placed Accurate total)

/-- The next action is the right one when the counters are right and either no
partition is marked or the last tier is within its limits.  Missing for the first
part of `Full`: the name of the target that a skipped tier leaves behind
(`C39_false_stale`), and states with counters that a drop has made wrong
(`C39_false_drops_all`). -/
theorem C39_next_partial (db : Db) (now : Nat) (l : List (Sto.TierConfig × Storage)) (ht : Tiers db l) (hs : Sane db now)
    (hp : Placed db) (ha : ∀ s ∈ db.storages, Accurate s)
    (hl : Idle db ∨ ∀ a x, l = a ++ [x] → ¬ Over x.2 x.1 now) : Right db now l := by
  obtain ⟨h1, h2, h3⟩ := hs
  obtain ⟨t1, t2, t3⟩ := ht
  unfold Right rebalanceNext
  rcases rebalanceFrom_spec hp ha h1 h3 db.tiers l [] h2 t1 t2 t3 with ⟨a, b⟩ | ⟨before, c, s, after, p, st, a1, a2, a3, a4, a5, a6, a7⟩
  · rw [a]
    exact ⟨none, db, rfl, b⟩
  · rw [a7]
    refine ⟨some (p.min, _), _, rfl, before, c, s, after, p, a1, a2, a3, a4, a5, rfl, ?_⟩
    cases after with
    | cons n after => rfl
    | nil =>
      rcases hl with hl | hl
      · rcases a6 with rfl | ⟨x, hx, q, hq, e⟩
        · rfl
        · rw [hl x.2 (t3 x (by rw [a1]; exact List.mem_append_left _ hx)) q hq] at e
          exact absurd e (by simp)
      · exact absurd a3 (hl before (c, s) a1)

/-- A tier within its limits is left alone. -/
theorem C39_within_partial (db : Db) (now : Nat) (l : List (Sto.TierConfig × Storage)) (ht : Tiers db l) (hs : Sane db now)
    (hp : Placed db) (ha : ∀ s ∈ db.storages, Accurate s) (hw : ∀ x ∈ l, ¬ Over x.2 x.1 now) :
    rebalanceNext db now = .ok (none, db) := by
  obtain ⟨h1, h2, h3⟩ := hs
  obtain ⟨t1, t2, t3⟩ := ht
  unfold rebalanceNext
  rcases rebalanceFrom_spec hp ha h1 h3 db.tiers l [] h2 t1 t2 t3 with ⟨a, b⟩ | ⟨before, c, s, after, p, st, a1, a2, a3, _⟩
  · rw [a]; rfl
  · exact absurd a3 (hw (c, s) (by rw [a1]; simp))

/-- When rebalance ends all tiers are within their limits: for pipelines without
drops (the last tier has no limits) in which neighbours are different storages,
from a state without marks.  Missing for the second part of `Full`: that it ends
(`C39_false_endless`), and drops. -/
theorem C39_stops_partial (db db' : Db) (now fuel : Nat) (file : Part → Nat × Nat) (l : List (Sto.TierConfig × Storage))
    (ht : Tiers db l) (hp : Placed db) (ha : ∀ s ∈ db.storages, Accurate s) (hi : Idle db)
    (hu : (db.storages.map (·.name)).Pairwise (· ≠ ·)) (hn : ∀ s ∈ db.storages, s.name ≠ [])
    (hd : ∀ a x y b, l = a ++ x :: y :: b → x.2.uid ≠ y.2.uid) (hl : ∀ a x, l = a ++ [x] → terminal x.1 = true)
    (hr : rebalance file now fuel db = .ok db') (hs : Sane db' now) :
    ∃ l', Tiers db' l' ∧ l'.map (fun x => (x.1, x.2.uid)) = l.map (fun x => (x.1, x.2.uid)) ∧ ∀ x ∈ l', ¬ Over x.2 x.1 now := by
  obtain ⟨t1, t2, t3⟩ := ht
  have hloop : Loop db (l.map fun x => (x.1, x.2.uid)) :=
    { inv := by
        refine ⟨hp, fun s hs => ?_⟩
        obtain ⟨a, b, c⟩ := ha s hs
        exact ⟨a, by rw [b]; simp, by rw [c]; simp⟩
      idle := hi
      tiers := by
        clear hd hl hr
        generalize db.tiers = ts at t1 t2
        induction ts generalizing l with
        | nil =>
          have : l = [] := by simpa using t1.symm
          subst this; rfl
        | cons t ts ih =>
          cases l with
          | nil => simp at t1
          | cons x l =>
            simp only [List.map_cons, List.cons.injEq] at t1 t2 ⊢
            exact ⟨by rw [t1.1, t2.1], ih l (fun x hx => t3 x (.tail _ hx)) t1.2 t2.2⟩
      known := by
        intro y hy
        obtain ⟨x, hx, rfl⟩ := List.mem_map.1 hy
        simp only [names, List.map_map, List.mem_map, Function.comp]
        exact ⟨x.2, t3 x hx, rfl⟩
      unique := by simpa [names, List.map_map, Function.comp_def] using hu
      named := by
        intro n h
        simp only [names, List.map_map, List.mem_map, Function.comp] at h
        obtain ⟨s, hs, rfl⟩ := h
        exact hn s hs
      distinct := by
        intro a x y b e
        obtain ⟨a', r, e1, _, e2⟩ := List.map_eq_append_iff.1 e
        obtain ⟨x', r', e3, ex, e4⟩ := List.map_eq_cons_iff.1 e2
        obtain ⟨y', b', e5, ey, _⟩ := List.map_eq_cons_iff.1 e4
        rw [← ex, ← ey]
        exact hd a' x' y' b' (by rw [e1, e3, e5])
      last := by
        intro a x e
        obtain ⟨a', r, e1, _, e2⟩ := List.map_eq_append_iff.1 e
        obtain ⟨x', r', e3, ex, e4⟩ := List.map_eq_cons_iff.1 e2
        have e4 : r' = [] := by simpa using e4
        rw [← ex]
        exact hl a' x' (by rw [e1, e3, e4]) }
  obtain ⟨hl', hq⟩ := Loop.rebalance fuel db db' hloop hr
  obtain ⟨m, hm1, hm2⟩ := hl'.storages
  refine ⟨m, hm1, hm2, ?_⟩
  intro x hx ho
  have hxs := hm1.2.2 x hx
  obtain ⟨h1, h2, h3⟩ := hs
  obtain ⟨b1, b2, b3⟩ := h3 x.2 hxs
  have hdur : x.1.duration < 9223372036854775808 := by
    have : x.1 ∈ db'.tiers.map (·.config) := by rw [hm1.1]; exact List.mem_map_of_mem hx
    obtain ⟨t, ht, e⟩ := List.mem_map.1 this
    rw [← e]; exact h2 t ht
  rcases tierNext_spec x.2 x.1 now (accurate_of (hl'.inv.2 x.2 hxs)) h1 hdur b1 b2 b3 with ⟨_, p, hp1, _⟩ | ⟨hno, _⟩
  · rw [hq m hm1 hm2 x hx] at hp1
    exact absurd hp1 (by simp)
  · exact hno ho

/-- Three storages; somebody works on the oldest partition of the first. -/
def three : Db :=
  { storages := [{ uid := 1, name := [97], listCount := 1, parts := [{ min := 0, timeCreate := 10, refresh := true }] },
                 { uid := 2, name := [98] },
                 { uid := 3, name := [99], listCount := 1, parts := [{ min := 5, timeCreate := 20 }] }]
    tiers := [⟨1, { name := [97], partitions := 0 }⟩, ⟨2, { name := [98], partitions := 5 }⟩,
              ⟨3, { name := [99], partitions := 0 }⟩] }

theorem three_ok : Tiers three
    [({ name := [97], partitions := 0 }, { uid := 1, name := [97], listCount := 1, parts := [{ min := 0, timeCreate := 10, refresh := true }] }),
     ({ name := [98], partitions := 5 }, { uid := 2, name := [98] }),
     ({ name := [99], partitions := 0 }, { uid := 3, name := [99], listCount := 1, parts := [{ min := 5, timeCreate := 20 }] })] ∧
    Sane three 100 ∧ Placed three ∧ ∀ s ∈ three.storages, Accurate s := by
  refine ⟨⟨rfl, rfl, by simp [three]⟩, ⟨by omega, by simp [three], ?_⟩, ⟨by simp [three], by simp [three]⟩, ?_⟩
  · intro s hs
    simp only [three, List.mem_cons, List.not_mem_nil, or_false] at hs
    rcases hs with rfl | rfl | rfl <;> simp [total, C38.Stored]
  · intro s hs
    simp only [three, List.mem_cons, List.not_mem_nil, or_false] at hs
    rcases hs with rfl | rfl | rfl <;> exact ⟨rfl, by decide +kernel, by decide +kernel⟩

/-- The last tier is over its limit and its partition should be dropped; it is
moved back to the second tier instead. -/
theorem C39_false_stale : ¬ Full := by
  intro h
  obtain ⟨h1, h2, h3, h4⟩ := three_ok
  obtain ⟨r, db', hr, hc⟩ := h.1 three 100 _ h1 h2 ⟨three, [], h3, h4, by simp, rfl⟩
  have e : rebalanceNext three 100 = .ok (some (5, [98]),
      onStorage three 3 fun s => setPart s { min := 5, timeCreate := 20, refresh := true }) := by decide +kernel
  rw [e] at hr
  have hr := (Prod.mk.inj (Res.ok.inj hr)).1
  subst hr
  obtain ⟨before, c, s, after, p, e1, _, _, ho, _, e2, e3⟩ := hc
  match before, e1 with
  | [], e1 =>
    have e1 := (List.cons.inj e1).1
    have := (Prod.mk.inj e1).2
    subst this
    have := ho.1
    simp only [List.mem_singleton] at this
    rw [this] at e2
    simp at e2
  | [_], e1 =>
    have e1 := (List.cons.inj (List.cons.inj e1).2).1
    have := (Prod.mk.inj e1).2
    subst this
    have := ho.1
    simp at this
  | [_, _], e1 =>
    have e1 := (List.cons.inj (List.cons.inj (List.cons.inj e1).2).2).2
    rw [← e1] at e3
    simp at e3
  | _ :: _ :: _ :: _ :: _, e1 => simp at e1
  | [_, _, _], e1 => simp at e1

/-- One storage with a size limit of 100 and three partitions of 60, 60 and 10
bytes: dropping the first is enough. -/
def over : Db :=
  { storages := [{ uid := 1, name := [109], listCount := 3, size := 130, events := 3
                   parts := [{ min := 0, state := { id := true }, size := 60, events := 1, timeCreate := 10 },
                             { min := 5, state := { id := true }, size := 60, events := 1, timeCreate := 20 },
                             { min := 9, state := { id := true }, size := 10, events := 1, timeCreate := 30 }] }]
    tiers := [⟨1, { name := [109], size := 100 }⟩] }

/-- Rebalance drops all partitions of a storage that is over its limit by one:
the counter keeps the size of what was dropped, and the storage stays "over" its
limit until it is empty. -/
theorem C39_false_drops_all :
    Placed over ∧ (∀ s ∈ over.storages, Accurate s) ∧ Idle over ∧
    (¬ ∃ s ∈ (drop over 0).storages, Over s { name := [109], size := 100 } 100) ∧
    rebalance (fun p => (p.size, p.events)) 100 10 over =
      .ok { over with storages := [{ uid := 1, name := [109], listCount := 0, size := 130, events := 3, parts := [] }] } := by
  refine ⟨⟨by simp [over], by simp [over]⟩, ?_, ?_, ?_, by decide +kernel⟩
  · intro s hs
    simp only [over, List.mem_cons, List.not_mem_nil, or_false] at hs
    subst hs
    exact ⟨rfl, by decide +kernel, by decide +kernel⟩
  · intro s hs p hp
    simp only [over, List.mem_cons, List.not_mem_nil, or_false] at hs
    subst hs
    simp only [List.mem_cons, List.not_mem_nil, or_false] at hp
    rcases hp with rfl | rfl | rfl <;> rfl
  · have e : (drop over 0).storages =
      [{ uid := 1, name := [109], listCount := 2, size := 130, events := 3
         parts := [{ min := 5, state := { id := true }, size := 60, events := 1, timeCreate := 20 },
                   { min := 9, state := { id := true }, size := 10, events := 1, timeCreate := 30 }] }] := by decide +kernel
    rw [e]
    rintro ⟨s, hs, ho⟩
    rw [List.mem_singleton.1 hs] at ho
    revert ho
    simp [Over, total, C38.Stored]

/-- If the clock is set back, a partition created "later" than now counts as older
than any limit (outside `Sane`). -/
theorem C39_false_clock :
    tierNext { uid := 1, name := [109], listCount := 1, parts := [{ min := 0, timeCreate := 101 }] }
      { name := [109], duration := 1000 } 100 = some { min := 0, timeCreate := 101 } := by decide +kernel

/-- A pipeline a, b, a with one partition. -/
def pingA : Db :=
  { storages := [{ uid := 1, name := [97], listCount := 1, size := 7, events := 1
                   parts := [{ min := 0, state := { id := true }, size := 7, events := 1, timeCreate := 10 }] },
                 { uid := 2, name := [98] }]
    tiers := [⟨1, { name := [97], partitions := 0 }⟩, ⟨2, { name := [98], partitions := 0 }⟩, ⟨1, { name := [97] }⟩] }

/-- The same with the partition on b. -/
def pingB : Db :=
  { pingA with
    storages := [{ uid := 1, name := [97] },
                 { uid := 2, name := [98], listCount := 1, size := 7, events := 1
                   parts := [{ min := 0, state := { id := true }, size := 7, events := 1, timeCreate := 10 }] }] }

/-- Rebalance never ends on a pipeline that names a storage twice, which ALTER
PIPELINE accepts when the two are not neighbours. -/
theorem C39_false_endless :
    alterValidate (pingA.tiers.map (·.config)) = .ok () ∧
    ∀ fuel, rebalance (fun p => (p.size, p.events)) 100 fuel pingA = .ub "fuel" ∧
      rebalance (fun p => (p.size, p.events)) 100 fuel pingB = .ub "fuel" := by
  refine ⟨by decide +kernel, ?_⟩
  have ea : rebalanceNext pingA 100 = .ok (some (0, [98]),
      onStorage pingA 1 fun s => setPart s { min := 0, state := { id := true }, size := 7, events := 1, timeCreate := 10, refresh := true }) := by
    decide +kernel
  have eb : rebalanceNext pingB 100 = .ok (some (0, [97]),
      onStorage pingB 2 fun s => setPart s { min := 0, state := { id := true }, size := 7, events := 1, timeCreate := 10, refresh := true }) := by
    decide +kernel
  have fa : refresh (onStorage pingA 1 fun s =>
      setPart s { min := 0, state := { id := true }, size := 7, events := 1, timeCreate := 10, refresh := true })
      0 (some [98]) 7 1 false = .ok pingB := by decide +kernel
  have fb : refresh (onStorage pingB 2 fun s =>
      setPart s { min := 0, state := { id := true }, size := 7, events := 1, timeCreate := 10, refresh := true })
      0 (some [97]) 7 1 false = .ok pingA := by decide +kernel
  intro fuel
  induction fuel with
  | zero => exact ⟨rfl, rfl⟩
  | succ fuel ih =>
    constructor
    · unfold rebalance
      rw [ea]
      simp only [Res.bind_ok]
      rw [if_neg (by simp)]
      have : findPart (onStorage pingA 1 fun s =>
          setPart s { min := 0, state := { id := true }, size := 7, events := 1, timeCreate := 10, refresh := true }) 0 =
        some ({ uid := 1, name := [97], listCount := 1, size := 7, events := 1
                parts := [{ min := 0, state := { id := true }, size := 7, events := 1, timeCreate := 10, refresh := true }] },
          { min := 0, state := { id := true }, size := 7, events := 1, timeCreate := 10, refresh := true }) := by decide +kernel
      rw [this]
      dsimp only
      rw [fa]
      exact ih.2
    · unfold rebalance
      rw [eb]
      simp only [Res.bind_ok]
      rw [if_neg (by simp)]
      have : findPart (onStorage pingB 2 fun s =>
          setPart s { min := 0, state := { id := true }, size := 7, events := 1, timeCreate := 10, refresh := true }) 0 =
        some ({ uid := 2, name := [98], listCount := 1, size := 7, events := 1
                parts := [{ min := 0, state := { id := true }, size := 7, events := 1, timeCreate := 10, refresh := true }] },
          { min := 0, state := { id := true }, size := 7, events := 1, timeCreate := 10, refresh := true }) := by decide +kernel
      rw [this]
      dsimp only
      rw [fb]
      exact ih.1

/-- A pipeline with a partition to move and a last tier without limits: the
hypotheses of `C39_next_partial` and `C39_stops_partial`. -/
def moving : Db :=
  { storages := [{ uid := 1, name := [97], listCount := 2, size := 30, events := 2
                   parts := [{ min := 0, state := { id := true }, size := 10, events := 1, timeCreate := 10 },
                             { min := 5, state := { id := true }, size := 20, events := 1, timeCreate := 20 }] },
                 { uid := 2, name := [98] }]
    tiers := [⟨1, { name := [97], partitions := 1 }⟩, ⟨2, { name := [98] }⟩] }

example : (∃ l, Tiers moving l ∧ l.length = 2) ∧ Sane moving 100 ∧ Placed moving ∧ (∀ s ∈ moving.storages, Accurate s) ∧
    Idle moving ∧ (∃ db', rebalance (fun p => (p.size, p.events)) 100 5 moving = .ok db') := by
  refine ⟨⟨[({ name := [97], partitions := 1 }, moving.storages.head (by simp [moving])),
    ({ name := [98] }, { uid := 2, name := [98] })], ⟨rfl, rfl, by simp [moving]⟩, rfl⟩, ⟨by omega, by simp [moving], ?_⟩,
    ⟨by simp [moving], by simp [moving]⟩, ?_, ?_, ?_⟩
  · intro s hs
    simp only [moving, List.mem_cons, List.not_mem_nil, or_false] at hs
    rcases hs with rfl | rfl <;> simp [total, C38.Stored]
  · intro s hs
    simp only [moving, List.mem_cons, List.not_mem_nil, or_false] at hs
    rcases hs with rfl | rfl <;> exact ⟨rfl, by decide +kernel, by decide +kernel⟩
  · intro s hs p hp
    simp only [moving, List.mem_cons, List.not_mem_nil, or_false] at hs
    rcases hs with rfl | rfl
    · simp only [List.mem_cons, List.not_mem_nil, or_false] at hp
      rcases hp with rfl | rfl <;> rfl
    · simp at hp
  · exact ⟨{ moving with
      storages := [{ uid := 1, name := [97], listCount := 1, size := 20, events := 1
                     parts := [{ min := 5, state := { id := true }, size := 20, events := 1, timeCreate := 20 }] },
                   { uid := 2, name := [98], listCount := 1, size := 10, events := 1
                     parts := [{ min := 0, state := { id := true }, size := 10, events := 1, timeCreate := 10 }] }] }, by decide +kernel⟩

end Verif.C39
