import Verif.Spec.C39
import Verif.Proofs.C38

namespace Verif.C39
open Sto
open C38 (Placed Accurate total)

theorem oldestFrom_some : ∀ (l : List Part) (m : Part), ∃ p, oldestFrom (some m) l = some p ∧ (p = m ∨ p ∈ l) ∧
    p.timeCreate ≤ m.timeCreate ∧ ∀ q ∈ l, p.timeCreate ≤ q.timeCreate
  | [], m => ⟨m, rfl, .inl rfl, Nat.le_refl _, by simp⟩
  | x :: l, m => by
    unfold oldestFrom
    split
    · obtain ⟨p, h1, h2, h3, h4⟩ := oldestFrom_some l x
      refine ⟨p, h1, ?_, by omega, ?_⟩
      · rcases h2 with rfl | h2
        · exact .inr (.head _)
        · exact .inr (.tail _ h2)
      · intro q hq
        rcases List.mem_cons.1 hq with rfl | hq
        · exact h3
        · exact h4 q hq
    · obtain ⟨p, h1, h2, h3, h4⟩ := oldestFrom_some l m
      refine ⟨p, h1, ?_, h3, ?_⟩
      · rcases h2 with rfl | h2
        · exact .inl rfl
        · exact .inr (.tail _ h2)
      · intro q hq
        rcases List.mem_cons.1 hq with rfl | hq
        · omega
        · exact h4 q hq

theorem oldest_spec (s : Storage) (h : s.parts ≠ []) : ∃ p, oldest s = some p ∧ Oldest s p := by
  unfold oldest Oldest
  cases hp : s.parts with
  | nil => exact absurd hp h
  | cons x l =>
    obtain ⟨p, h1, h2, h3, h4⟩ := oldestFrom_some l x
    refine ⟨p, h1, ?_, ?_⟩
    · rcases h2 with rfl | h2
      · exact .head _
      · exact .tail _ h2
    · intro q hq
      rcases List.mem_cons.1 hq with rfl | hq
      · exact h3
      · exact h4 q hq

theorem oldest_nil (s : Storage) (h : s.parts = []) : oldest s = none := by
  unfold oldest; rw [h]; rfl

theorem total_pos {f : Part → Nat} {l : List Part} (h : 0 < total f l) : l ≠ [] := by
  rintro rfl; simp [total] at h

/-- The limits are checked as they should be. -/
theorem tierNext_spec (s : Storage) (c : Sto.TierConfig) (now : Nat) (ha : Accurate s) (hn : now < 18446744073709551616)
    (hd : c.duration < 9223372036854775808)
    (h1 : total (·.size) s.parts < 9223372036854775808) (h2 : total (·.events) s.parts < 9223372036854775808)
    (ht : ∀ p ∈ s.parts, p.timeCreate ≤ now) :
    (Over s c now ∧ ∃ p, tierNext s c now = some p ∧ Oldest s p) ∨ (¬ Over s c now ∧ tierNext s c now = none) := by
  obtain ⟨a, b, e⟩ := ha
  rw [wrapS64_id (by omega) (by omega)] at b e
  unfold tierNext
  by_cases c1 : c.partitions ≥ 0 ∧ s.listCount > c.partitions
  · rw [if_pos c1]
    have ho : Over s c now := .inl ⟨c1.1, by omega⟩
    refine .inl ⟨ho, oldest_spec s ?_⟩
    intro h0; rw [h0] at a; simp at a; omega
  rw [if_neg c1]
  by_cases c2 : c.size ≥ 0 ∧ s.size > c.size
  · rw [if_pos c2]
    exact .inl ⟨.inr (.inl ⟨c2.1, by omega⟩), oldest_spec s (total_pos (f := (·.size)) (by omega))⟩
  rw [if_neg c2]
  by_cases c3 : c.events ≥ 0 ∧ s.events > c.events
  · rw [if_pos c3]
    exact .inl ⟨.inr (.inr (.inl ⟨c3.1, by omega⟩)), oldest_spec s (total_pos (f := (·.events)) (by omega))⟩
  rw [if_neg c3]
  by_cases c4 : c.duration ≥ 0
  · rw [if_pos c4]
    by_cases h0 : s.parts = []
    · rw [oldest_nil s h0]
      refine .inr ⟨?_, rfl⟩
      rintro (h | h | h | ⟨_, p, hp, _⟩)
      · omega
      · omega
      · omega
      · rw [h0] at hp; simp at hp
    · obtain ⟨p, hp, ho⟩ := oldest_spec s h0
      rw [hp]
      dsimp only
      have hpt := ht p ho.1
      have e1 : wrapU64 ((now : Int) - p.timeCreate) = now - p.timeCreate := by unfold wrapU64; omega
      have e2 : (wrapU64 c.duration : Int) = c.duration := by unfold wrapU64; omega
      by_cases c5 : wrapU64 ((now : Int) - p.timeCreate) ≥ wrapU64 c.duration
      · rw [if_pos c5]
        exact .inl ⟨.inr (.inr (.inr ⟨c4, p, ho.1, by omega⟩)), p, rfl, ho⟩
      · rw [if_neg c5]
        refine .inr ⟨?_, rfl⟩
        rintro (h | h | h | ⟨_, q, hq, h⟩)
        · omega
        · omega
        · omega
        · have := ho.2 q hq
          omega
  · rw [if_neg c4]
    refine .inr ⟨?_, rfl⟩
    rintro (h | h | h | ⟨h, _⟩) <;> omega

theorem find_uid {db : Db} (h : Placed db) {s : Storage} (hs : s ∈ db.storages) :
    db.storages.find? (fun t => t.uid == s.uid) = some s := by
  cases hf : db.storages.find? (fun t => t.uid == s.uid) with
  | none =>
    rw [List.find?_eq_none] at hf
    exact absurd (by simp) (hf s hs)
  | some t =>
    have h1 := List.mem_of_find?_eq_some hf
    have h2 := List.find?_some hf
    rw [C38.uid_unique h h1 hs (by simpa using h2)]

/-- The loop over the tiers; `st` is the name that earlier tiers have left. -/
theorem rebalanceFrom_spec {db : Db} {now : Nat} (hp : Placed db) (ha : ∀ s ∈ db.storages, Accurate s)
    (hn : now < 18446744073709551616)
    (hs : ∀ s ∈ db.storages, total (·.size) s.parts < 9223372036854775808 ∧ total (·.events) s.parts < 9223372036854775808 ∧
      ∀ p ∈ s.parts, p.timeCreate ≤ now) :
    ∀ (tiers : List Tier) (l : List (Sto.TierConfig × Storage)) (st : Bytes),
      (∀ t ∈ tiers, t.config.duration < 9223372036854775808) →
      tiers.map (·.config) = l.map (·.1) → tiers.map (·.storage) = l.map (·.2.uid) → (∀ x ∈ l, x.2 ∈ db.storages) →
      (rebalanceFrom db now tiers st = .ok none ∧ ∀ x ∈ l, Skip now x) ∨
      (∃ before c s after p st', l = before ++ (c, s) :: after ∧ (∀ x ∈ before, Skip now x) ∧ Over s c now ∧
        Oldest s p ∧ p.refresh = false ∧
        (st' = st ∨ ∃ x ∈ before, ∃ p ∈ x.2.parts, p.refresh = true) ∧
        rebalanceFrom db now tiers st = .ok (some (s.uid, p, match after with
          | [] => st'
          | n :: _ => n.2.name)))
  | [], l, _, _, h1, _, _ => by
    have : l = [] := by simpa using h1.symm
    subst this
    exact .inl ⟨rfl, by simp⟩
  | t :: rest, [], _, _, h1, _, _ => by simp at h1
  | t :: rest, x :: l, st, hd, h1, h2, h3 => by
    obtain ⟨c, s⟩ := x
    simp only [List.map_cons, List.cons.injEq] at h1 h2
    have hsm := h3 (c, s) (.head _)
    have hfs := find_uid hp hsm
    obtain ⟨b1, b2, b3⟩ := hs s hsm
    have ih := rebalanceFrom_spec hp ha hn hs rest l
    have step : ∀ st1, Skip now (c, s) → (st1 = st ∨ ∃ p ∈ s.parts, p.refresh = true) →
        (rebalanceFrom db now rest st1 = .ok none ∧ ∀ x ∈ (c, s) :: l, Skip now x) ∨
        (∃ before c' s' after p st', (c, s) :: l = before ++ (c', s') :: after ∧ (∀ x ∈ before, Skip now x) ∧ Over s' c' now ∧
          Oldest s' p ∧ p.refresh = false ∧ (st' = st ∨ ∃ x ∈ before, ∃ p ∈ x.2.parts, p.refresh = true) ∧
          rebalanceFrom db now rest st1 = .ok (some (s'.uid, p, match after with
            | [] => st'
            | n :: _ => n.2.name))) := by
      intro st1 hsk hst
      rcases ih st1 (fun t ht => hd t (.tail _ ht)) h1.2 h2.2
        (fun x hx => h3 x (.tail _ hx)) with ⟨a, b⟩ | ⟨before, c', s', after, p, st', a1, a2, a3, a4, a5, a6, a7⟩
      · left
        refine ⟨a, ?_⟩
        intro x hx
        rcases List.mem_cons.1 hx with rfl | hx
        · exact hsk
        · exact b x hx
      · right
        refine ⟨(c, s) :: before, c', s', after, p, st', by rw [a1]; rfl, ?_, a3, a4, a5, ?_, a7⟩
        · intro x hx
          rcases List.mem_cons.1 hx with rfl | hx
          · exact hsk
          · exact a2 x hx
        · rcases a6 with rfl | ⟨x, hx, hh⟩
          · rcases hst with rfl | hst
            · exact .inl rfl
            · exact .inr ⟨(c, s), .head _, hst⟩
          · exact .inr ⟨x, .tail _ hx, hh⟩
    unfold rebalanceFrom
    rw [h2.1, hfs]
    dsimp only
    rw [h1.1]
    rcases tierNext_spec s c now (ha s hsm) hn (by rw [← h1.1]; exact hd t (.head _)) b1 b2 b3 with ⟨ho, p, hp1, hp2⟩ | ⟨ho, hp1⟩
    · rw [hp1]
      dsimp only
      cases rest with
      | nil =>
        have hl : l = [] := by simpa using h1.2.symm
        subst hl
        dsimp only
        cases hr : p.refresh with
        | true => exact step st (.inr ⟨p, hp2, hr⟩) (.inl rfl)
        | false =>
          right
          exact ⟨[], c, s, [], p, st, rfl, by simp, ho, hp2, hr, .inl rfl, rfl⟩
      | cons n rest =>
        cases l with
        | nil => simp at h1
        | cons y l =>
          obtain ⟨c', s'⟩ := y
          simp only [List.map_cons, List.cons.injEq] at h1 h2
          have hf := find_uid hp (h3 (c', s') (.tail _ (.head _)))
          dsimp only
          rw [h2.2.1, hf]
          dsimp only [Option.map]
          cases hr : p.refresh with
          | true => exact step s'.name (.inr ⟨p, hp2, hr⟩) (.inr ⟨p, hp2.1, hr⟩)
          | false =>
            right
            exact ⟨[], c, s, (c', s') :: l, p, st, rfl, by simp, ho, hp2, hr, .inl rfl, rfl⟩
    · rw [hp1]
      exact step st (.inl ho) (.inl rfl)

/-! The loop of rebalance. -/

theorem oldest_mem {s : Storage} {p : Part} (h : oldest s = some p) : p ∈ s.parts := by
  by_cases h0 : s.parts = []
  · rw [oldest_nil s h0] at h; exact absurd h (by simp)
  · obtain ⟨q, hq, ho⟩ := oldest_spec s h0
    rw [hq] at h
    rw [← Option.some.inj h]; exact ho.1

theorem tierNext_mem {s : Storage} {c : Sto.TierConfig} {now : Nat} {p : Part} (h : tierNext s c now = some p) : p ∈ s.parts := by
  unfold tierNext at h
  split at h
  · exact oldest_mem h
  split at h
  · exact oldest_mem h
  split at h
  · exact oldest_mem h
  split at h
  · cases ho : oldest s with
    | none => rw [ho] at h; exact absurd h (by simp)
    | some q =>
      rw [ho] at h
      dsimp only at h
      split at h
      · rw [← Option.some.inj h]; exact oldest_mem ho
      · exact absurd h (by simp)
  · exact absurd h (by simp)

theorem tierNext_terminal (s : Storage) (c : Sto.TierConfig) (now : Nat) (h : terminal c = true) : tierNext s c now = none := by
  unfold terminal at h
  simp only [Bool.and_eq_true, decide_eq_true_eq] at h
  unfold tierNext
  rw [if_neg (by omega), if_neg (by omega), if_neg (by omega), if_neg (by omega)]

/-- What the loop over the tiers gives, whatever the counters are. -/
theorem rebalanceFrom_cases {db : Db} {now : Nat} (hp : Placed db) (hi : Idle db) :
    ∀ (tiers : List Tier) (l : List (Sto.TierConfig × Storage)),
      tiers.map (·.config) = l.map (·.1) → tiers.map (·.storage) = l.map (·.2.uid) → (∀ x ∈ l, x.2 ∈ db.storages) →
      (rebalanceFrom db now tiers [] = .ok none ∧ ∀ x ∈ l, tierNext x.2 x.1 now = none) ∨
      (∃ before c s after p, l = before ++ (c, s) :: after ∧ tierNext s c now = some p ∧
        rebalanceFrom db now tiers [] = .ok (some (s.uid, p, match after with
          | [] => []
          | n :: _ => n.2.name)))
  | [], l, h1, _, _ => by
    have : l = [] := by simpa using h1.symm
    subst this
    exact .inl ⟨rfl, by simp⟩
  | t :: rest, [], h1, _, _ => by simp at h1
  | t :: rest, x :: l, h1, h2, h3 => by
    obtain ⟨c, s⟩ := x
    simp only [List.map_cons, List.cons.injEq] at h1 h2
    have hsm := h3 (c, s) (.head _)
    have hfs := find_uid hp hsm
    unfold rebalanceFrom
    rw [h2.1, hfs]
    dsimp only
    rw [h1.1]
    cases hp1 : tierNext s c now with
    | some p =>
      right
      dsimp only
      have hr := hi s hsm p (tierNext_mem hp1)
      cases rest with
      | nil =>
        have hl : l = [] := by simpa using h1.2.symm
        subst hl
        refine ⟨[], c, s, [], p, rfl, hp1, ?_⟩
        dsimp only
        rw [hr]
        rfl
      | cons n rest =>
        cases l with
        | nil => simp at h1
        | cons y l =>
          obtain ⟨c', s'⟩ := y
          simp only [List.map_cons, List.cons.injEq] at h1 h2
          have := find_uid hp (h3 (c', s') (.tail _ (.head _)))
          refine ⟨[], c, s, (c', s') :: l, p, rfl, hp1, ?_⟩
          dsimp only
          rw [h2.2.1, this]
          dsimp only [Option.map]
          rw [hr]
          rfl
    | none =>
      dsimp only
      rcases rebalanceFrom_cases hp hi rest l h1.2 h2.2
        (fun x hx => h3 x (.tail _ hx)) with ⟨a, b⟩ | ⟨before, c', s', after, p, a1, a2, a3⟩
      · left
        refine ⟨a, ?_⟩
        intro x hx
        rcases List.mem_cons.1 hx with rfl | hx
        · exact hp1
        · exact b x hx
      · right
        exact ⟨(c, s) :: before, c', s', after, p, by rw [a1]; rfl, a2, a3⟩

/-- Storages keep pointers and names. -/
def names (db : Db) : List (Nat × Bytes) := db.storages.map fun s => (s.uid, s.name)

theorem names_on (db : Db) (u : Nat) (f : Storage → Storage) (h : ∀ s, (f s).uid = s.uid ∧ (f s).name = s.name) :
    names (onStorage db u f) = names db := by
  unfold names onStorage
  rw [List.map_map]
  apply List.map_congr_left
  intro s _
  simp only [Function.comp]
  split
  · rw [(h s).1, (h s).2]
  · rfl

theorem storage_add_name (s : Storage) (p : Part) : (storage_add s p).name = s.name := by
  unfold storage_add addMetrics; split <;> rfl

theorem storage_remove_name (s : Storage) (p : Part) : (storage_remove s p).name = s.name := by
  unfold storage_remove removeMetrics; split <;> rfl

theorem refreshApply_names {db db' : Db} {p : Part} {o u size events : Nat}
    (h : refreshApply db p o u size events = .ok db') : names db' = names db ∧ db'.tiers = db.tiers := by
  unfold refreshApply at h
  obtain ⟨_, _, h⟩ := Res.bind_eq_ok.1 h
  obtain ⟨_, _, h⟩ := Res.bind_eq_ok.1 h
  have h := Res.ok.inj h
  subst h
  refine ⟨?_, rfl⟩
  refine Eq.trans (names_on _ _ _ ?_) ?_
  · exact fun _ => ⟨rfl, rfl⟩
  refine Eq.trans (names_on _ _ _ ?_) ?_
  · exact fun s => ⟨C38.storage_add_uid s _, storage_add_name s _⟩
  exact names_on _ _ _ (fun s => ⟨C38.storage_remove_uid s _, storage_remove_name s _⟩)

theorem refreshApply_idle {db db' : Db} {s : Storage} {p : Part} {u size events : Nat}
    (hp : Placed db) (hs : s ∈ db.storages) (hm : p ∈ s.parts)
    (hi : ∀ t ∈ db.storages, ∀ q ∈ t.parts, q.min ≠ p.min → q.refresh = false)
    (h : refreshApply db p s.uid u size events = .ok db') : Idle db' := by
  unfold refreshApply at h
  obtain ⟨_, _, h⟩ := Res.bind_eq_ok.1 h
  obtain ⟨_, _, h⟩ := Res.bind_eq_ok.1 h
  have h := Res.ok.inj h
  have ha := C38.absent_remove hp hs hm
  have h1 : Idle (onStorage db s.uid fun s => storage_remove s p) := by
    intro t ht q hq
    have hne := ha t ht q hq
    simp only [onStorage, List.mem_map] at ht
    obtain ⟨t0, ht0, rfl⟩ := ht
    split at hq
    · rw [C38.storage_remove_parts] at hq
      exact hi t0 ht0 q (List.mem_filter.1 hq).1 hne
    · exact hi t0 ht0 q hq hne
  generalize hdb1 : (onStorage db s.uid fun s => storage_remove s p) = db1 at h1 h
  have add_idle : ∀ (db : Db) (q : Part), Idle db → q.refresh = false → Idle (onStorage db u fun s => storage_add s q) := by
    intro db q hdb hq t ht r hr
    simp only [onStorage, List.mem_map] at ht
    obtain ⟨t0, ht0, rfl⟩ := ht
    split at hr
    · rw [C38.storage_add_parts] at hr
      rcases List.mem_append.1 hr with hr | hr
      · exact hdb t0 ht0 r hr
      · rw [List.mem_singleton.1 hr]; exact hq
    · exact hdb t0 ht0 r hr
  have set_idle : ∀ (db : Db) (q : Part), Idle db → q.refresh = false → Idle (onStorage db u fun s => setPart s q) := by
    intro db q hdb hq t ht r hr
    simp only [onStorage, List.mem_map] at ht
    obtain ⟨t0, ht0, rfl⟩ := ht
    split at hr
    · simp only [setPart, List.mem_map] at hr
      obtain ⟨r0, hr0, e⟩ := hr
      split at e
      · rw [← e]; exact hq
      · rw [← e]; exact hdb t0 ht0 r0 hr0
    · exact hdb t0 ht0 r hr
  subst h
  exact set_idle _ _ (add_idle _ _ h1 rfl) rfl

/-- What the loop keeps. -/
structure Loop (db : Db) (l : List (Sto.TierConfig × Nat)) : Prop where
  inv : C38.Inv (fun _ => (0, 0)) db
  idle : Idle db
  tiers : db.tiers.map (fun t => (t.config, t.storage)) = l
  known : ∀ x ∈ l, x.2 ∈ (names db).map (·.1)
  unique : ((names db).map (·.2)).Pairwise (· ≠ ·)
  named : ∀ n ∈ (names db).map (·.2), n ≠ []
  distinct : ∀ a x y b, l = a ++ x :: y :: b → x.2 ≠ y.2
  last : ∀ a x, l = a ++ [x] → terminal x.1 = true

theorem accurate_of {s : Storage} (h : C38.AccurateUpTo (0, 0) s) : Accurate s := by
  obtain ⟨a, b, c⟩ := h
  exact ⟨a, by rw [b]; simp, by rw [c]; simp⟩

/-- The tiers with their storages. -/
theorem Loop.storages {db : Db} {l : List (Sto.TierConfig × Nat)} (h : Loop db l) :
    ∃ m : List (Sto.TierConfig × Storage), Tiers db m ∧ m.map (fun x => (x.1, x.2.uid)) = l := by
  have hk := h.known
  have : ∃ m : List (Sto.TierConfig × Storage), m.map (fun x => (x.1, x.2.uid)) = l ∧ ∀ x ∈ m, x.2 ∈ db.storages := by
    clear h
    induction l with
    | nil => exact ⟨[], rfl, by simp⟩
    | cons x l ih =>
      obtain ⟨m, h1, h2⟩ := ih (fun y hy => hk y (.tail _ hy))
      have := hk x (.head _)
      simp only [names, List.map_map, List.mem_map, Function.comp] at this
      obtain ⟨s, hs, e⟩ := this
      refine ⟨(x.1, s) :: m, by simp [h1, e], ?_⟩
      intro y hy
      rcases List.mem_cons.1 hy with rfl | hy
      · exact hs
      · exact h2 y hy
  obtain ⟨m, h1, h2⟩ := this
  refine ⟨m, ⟨?_, ?_, h2⟩, h1⟩
  · have e := congrArg (List.map (·.1)) (h.tiers.trans h1.symm)
    simpa [List.map_map, Function.comp_def] using e
  · have e := congrArg (List.map (·.2)) (h.tiers.trans h1.symm)
    simpa [List.map_map, Function.comp_def] using e

theorem pairwise_inj {α β : Type} {f : α → β} : ∀ {l : List α}, (l.map f).Pairwise (· ≠ ·) → ∀ a ∈ l, ∀ b ∈ l, f a = f b → a = b
  | [], _, _, h, _, _, _ => by simp at h
  | x :: l, hd, a, ha, b, hb, e => by
    rw [List.map_cons, List.pairwise_cons] at hd
    rcases List.mem_cons.1 ha with rfl | ha'
    · rcases List.mem_cons.1 hb with rfl | hb'
      · rfl
      · exact absurd e (hd.1 _ (List.mem_map_of_mem hb'))
    · rcases List.mem_cons.1 hb with rfl | hb'
      · exact absurd e.symm (hd.1 _ (List.mem_map_of_mem ha'))
      · exact pairwise_inj hd.2 a ha' b hb' e

/-- One turn of the loop. -/
theorem Loop.turn {db : Db} {l : List (Sto.TierConfig × Nat)} {now : Nat} (h : Loop db l) :
    (rebalanceNext db now = .ok (none, db) ∧ ∀ m, Tiers db m → m.map (fun x => (x.1, x.2.uid)) = l → ∀ x ∈ m, tierNext x.2 x.1 now = none) ∨
    ∃ min target db1, rebalanceNext db now = .ok (some (min, target), db1) ∧ target ≠ [] ∧
      ∃ s p, findPart db1 min = some (s, p) ∧ ∀ size events db2, refresh db1 min (some target) size events false = .ok db2 → Loop db2 l := by
  obtain ⟨m, ⟨t1, t2, t3⟩, hm⟩ := h.storages
  rcases rebalanceFrom_cases (now := now) h.inv.1 h.idle db.tiers m t1 t2 t3 with ⟨a, b⟩ | ⟨before, c, s, after, p, e, hp, hr⟩
  · left
    refine ⟨by unfold rebalanceNext; rw [a]; rfl, ?_⟩
    intro m' ht' hm'
    rcases rebalanceFrom_cases (now := now) h.inv.1 h.idle db.tiers m' ht'.1 ht'.2.1 ht'.2.2 with ⟨_, b'⟩ | ⟨_, _, _, _, _, _, _, hr'⟩
    · exact b'
    · rw [a] at hr'; exact absurd hr' (by simp)
  · right
    cases after with
    | nil =>
      have := h.last (before.map fun x => (x.1, x.2.uid)) (c, s.uid) (by rw [← hm, e]; simp)
      rw [tierNext_terminal s c now this] at hp
      exact absurd hp (by simp)
    | cons n after =>
      obtain ⟨c', n⟩ := n
      dsimp only at hr
      have hs : s ∈ db.storages := t3 (c, s) (by rw [e]; simp)
      have hn : n ∈ db.storages := t3 (c', n) (by rw [e]; simp)
      have hne : s.uid ≠ n.uid :=
        h.distinct (before.map fun x => (x.1, x.2.uid)) (c, s.uid) (c', n.uid) (after.map fun x => (x.1, x.2.uid))
          (by rw [← hm, e]; simp)
      have hpm := tierNext_mem hp
      have hpr := h.idle s hs p hpm
      have ep : ({ p with refresh := true } : Part).min = p.min := rfl
      refine ⟨p.min, n.name, onStorage db s.uid fun s => setPart s { p with refresh := true }, ?_, ?_, ?_⟩
      · unfold rebalanceNext; rw [hr]; rfl
      · exact h.named _ (by simp only [names, List.map_map, List.mem_map, Function.comp]; exact ⟨n, hn, rfl⟩)
      · have z1 : C38.part (·.size) { p with refresh := true } = C38.part (·.size) p := rfl
        have z2 : C38.part (·.events) { p with refresh := true } = C38.part (·.events) p := rfl
        have hinv : C38.Inv (fun _ => (0, 0)) (onStorage db s.uid fun s => setPart s { p with refresh := true }) :=
          C38.inv_set h.inv hs hpm ep (fun _ _ => rfl) (by rw [z1]; dsimp only; omega) (by rw [z2]; dsimp only; omega)
        have hmem : setPart s { p with refresh := true } ∈
            (onStorage db s.uid fun s => setPart s { p with refresh := true }).storages := by
          simp only [onStorage, List.mem_map]
          exact ⟨s, hs, by rw [if_pos rfl]⟩
        have hpm' : ({ p with refresh := true } : Part) ∈ (setPart s { p with refresh := true }).parts :=
          List.mem_map.2 ⟨p, hpm, by rw [if_pos ep.symm]⟩
        have hfp := C38.findPart_eq hinv.1 hmem hpm'
        have hnames : names (onStorage db s.uid fun s => setPart s { p with refresh := true }) = names db :=
          names_on _ _ _ (fun _ => ⟨rfl, rfl⟩)
        have hi : ∀ t ∈ (onStorage db s.uid fun s => setPart s { p with refresh := true }).storages, ∀ q ∈ t.parts,
            q.min ≠ p.min → q.refresh = false := by
          intro t ht q hq hqm
          simp only [onStorage, List.mem_map] at ht
          obtain ⟨t0, ht0, rfl⟩ := ht
          split at hq
          · simp only [setPart, List.mem_map] at hq
            obtain ⟨q0, hq0, e0⟩ := hq
            split at e0
            · exact absurd (by rw [← e0]) hqm
            · rw [← e0]; exact h.idle t0 ht0 q0 hq0
          · exact h.idle t0 ht0 q hq
        have hfn : ∃ n', findStorage (onStorage db s.uid fun s => setPart s { p with refresh := true }) n.name = some n' ∧
            n'.uid = n.uid := by
          have hx : n ∈ (onStorage db s.uid fun s => setPart s { p with refresh := true }).storages := by
            simp only [onStorage, List.mem_map]
            exact ⟨n, hn, by rw [if_neg (fun e => hne e.symm)]⟩
          cases hf : findStorage (onStorage db s.uid fun s => setPart s { p with refresh := true }) n.name with
          | none =>
            unfold findStorage at hf
            rw [List.find?_eq_none] at hf
            exact absurd (by simp) (hf n hx)
          | some n' =>
            refine ⟨n', rfl, ?_⟩
            unfold findStorage at hf
            have a1 := List.mem_of_find?_eq_some hf
            have a2 : n'.name = n.name := by simpa using List.find?_some hf
            have hu := h.unique
            rw [← hnames, names, List.map_map] at hu
            exact congrArg (·.uid) (pairwise_inj (f := fun s : Storage => s.name) (by simpa [Function.comp_def] using hu) n' a1 n hx a2)
        obtain ⟨n', hfn, hun⟩ := hfn
        generalize hdb1 : (onStorage db s.uid fun s => setPart s { p with refresh := true }) = db1 at hinv hmem hfp hnames hi hfn ⊢
        have htiers : db1.tiers = db.tiers := by rw [← hdb1]; rfl
        have hfp : findPart db1 p.min = some (setPart s { p with refresh := true }, { p with refresh := true }) := hfp
        refine ⟨_, _, hfp, ?_⟩
        intro size events db2 hr2
        unfold refresh refreshBegin at hr2
        rw [hfp] at hr2
        dsimp only at hr2
        by_cases hcl : p.state.cloud = true
        · rw [if_pos hcl] at hr2; exact absurd hr2 (by simp [Res.bind])
        rw [if_neg hcl, hfn] at hr2
        dsimp only at hr2
        rw [if_neg (by rw [hun]; exact fun e => hne e.symm)] at hr2
        simp only [Res.bind_ok] at hr2
        have hr2 : refreshApply db1 { p with refresh := true } (setPart s { p with refresh := true }).uid n'.uid size events = .ok db2 := hr2
        have hnm := refreshApply_names hr2
        exact
          { inv := C38.inv_refreshApply hinv hmem hpm' hr2
            idle := refreshApply_idle hinv.1 hmem hpm' hi hr2
            tiers := by rw [hnm.2, htiers]; exact h.tiers
            known := by rw [hnm.1, hnames]; exact h.known
            unique := by rw [hnm.1, hnames]; exact h.unique
            named := by rw [hnm.1, hnames]; exact h.named
            distinct := h.distinct
            last := h.last }

/-- When the loop ends, no tier asks for anything. -/
theorem Loop.rebalance {file : Part → Nat × Nat} {now : Nat} {l : List (Sto.TierConfig × Nat)} : ∀ (fuel : Nat) (db db' : Db),
    Loop db l → Sto.rebalance file now fuel db = .ok db' →
    Loop db' l ∧ ∀ m, Tiers db' m → m.map (fun x => (x.1, x.2.uid)) = l → ∀ x ∈ m, tierNext x.2 x.1 now = none
  | 0, _, _, _, h => by simp [Sto.rebalance] at h
  | fuel + 1, db, db', hl, h => by
    unfold Sto.rebalance at h
    rcases hl.turn (now := now) with ⟨a, b⟩ | ⟨min, target, db1, a, hne, s, p, hf, hh⟩
    · rw [a] at h
      have := Res.ok.inj h
      subst this
      exact ⟨hl, b⟩
    · rw [a] at h
      simp only [Res.bind_ok] at h
      rw [if_neg hne, hf] at h
      obtain ⟨db2, h2, h3⟩ := Res.bind_eq_ok.1 h
      exact Loop.rebalance fuel db2 db' (hh _ _ _ h2) h3

end Verif.C39
