import Verif.Proofs.C27b
import Verif.Spec.C41

namespace Verif.C41
open Files C27

/-- A copy of version `v` at each place the state says there is one. -/
def Kept (w : World) (v : Option Nat) : Prop :=
  match w.mem with
  | none => v = none
  | some m => m.fd = .id ∧ m.closed = false ∧
    (m.id = true → ∃ b, (w.disk m.storage).id = some b ∧ b.written = true ∧ v = some b.version) ∧
    (m.cloud = true → ∃ b, (w.disk m.storage).remote = some b ∧ b.written = true ∧ v = some b.version) ∧
    (m.id = false → m.cloud = false → v = none)

theorem kept_readable {w : World} {v : Nat} (h : Kept w (some v)) : Readable w v := by
  unfold Kept at h
  unfold Readable content
  cases hm : w.mem with
  | none => rw [hm] at h; cases h
  | some m =>
    rw [hm] at h
    obtain ⟨h1, h2, h3, h4, h5⟩ := h
    dsimp only
    rw [h1, h2]
    cases hi : m.id with
    | true =>
      obtain ⟨b, hb, hw, hv⟩ := h3 hi
      exact ⟨b, hb, hw, (Option.some.inj hv).symm⟩
    | false =>
      cases hc : m.cloud with
      | true =>
        obtain ⟨b, hb, hw, hv⟩ := h4 hc
        exact ⟨b, hb, hw, (Option.some.inj hv).symm⟩
      | false => cases h5 hi hc

theorem readable_kept {w : World} {v : Nat} {v' : Option Nat} (h : Readable w v) (hk : Kept w v') : v' = some v := by
  cases v' with
  | some v' =>
    obtain ⟨b, hb, _, hv⟩ := kept_readable hk
    obtain ⟨b', hb', _, hv'⟩ := h
    rw [hb] at hb'
    cases hb'
    rw [← hv, ← hv']
  | none =>
    obtain ⟨b, hb, _, _⟩ := h
    unfold Kept at hk
    unfold content at hb
    cases hm : w.mem with
    | none => rw [hm] at hb; cases hb
    | some m =>
      rw [hm] at hk hb
      obtain ⟨_, _, h3, h4, _⟩ := hk
      dsimp only at hb
      cases hi : m.id with
      | true => obtain ⟨_, _, _, h⟩ := h3 hi; cases h
      | false =>
        cases hc : m.cloud with
        | true => obtain ⟨_, _, _, h⟩ := h4 hc; cases h
        | false => rw [hi, hc] at hb; cases hb

/-- Steps that do not change memory, nor the copies, keep them. -/
theorem kept_same {w w' : World} {v : Option Nat} (h : Kept w v) (hm : w'.mem = w.mem)
    (hd : ∀ m, w.mem = some m → (m.id = true → (w'.disk m.storage).id = (w.disk m.storage).id) ∧
      (m.cloud = true → (w'.disk m.storage).remote = (w.disk m.storage).remote)) : Kept w' v := by
  unfold Kept at h ⊢
  rw [hm]
  cases hw : w.mem with
  | none => rw [hw] at h; exact h
  | some m =>
    rw [hw] at h
    obtain ⟨h1, h2, h3, h4, h5⟩ := h
    obtain ⟨d1, d2⟩ := hd m hw
    refine ⟨h1, h2, ?_, ?_, h5⟩
    · intro hi; rw [d1 hi]; exact h3 hi
    · intro hi; rw [d2 hi]; exact h4 hi

theorem kept_nothing {w : World} {v : Option Nat} (h : Kept w v) {l : List Step} (hl : l = [] ∨ l = [.fail]) (n : Nat) :
    Kept (exec w (l.take n)) v := by
  have e2 : ∀ n, exec w (l.take n) = w := by
    intro n
    rcases hl with rfl | rfl
    · rw [List.take_nil]; rfl
    · rcases n with _ | n
      · rfl
      · rw [List.take_succ_cons]; rfl
  rw [e2]; exact h

theorem kept_upload {w : World} {v : Option Nat} (h : Kept w v) (n : Nat) : Kept (exec w ((plan w .upload).take n)) v := by
  have h0 := h
  unfold Kept at h
  cases hm : w.mem with
  | none => simp only [plan, hm]; exact kept_nothing h0 (.inl rfl) n
  | some m =>
    rw [hm] at h
    obtain ⟨i, mi, mc, fd, cl⟩ := m
    obtain ⟨rfl, rfl, h3, h4, h5⟩ := h
    dsimp only at h3 h4 h5
    simp only [plan, hm]
    cases mc with
    | true => exact kept_nothing h0 (.inl rfl) n
    | false =>
      cases mi with
      | false => exact kept_nothing h0 (.inr rfl) n
      | true =>
        obtain ⟨b, hb, hw, hv⟩ := h3 rfl
        simp only [Bool.false_eq_true, if_false, Bool.not_true, uploadSteps, hb]
        cases ho : b.opens with
        | false =>
          simp only [Bool.not_false, if_true]
          refine kept_same h0 ?_ ?_
          · rw [exec_mem]
            match n with
            | 0 => rfl
            | 1 => rfl
            | n + 2 => rw [List.take_of_length_le (by simp)]; rfl
          · intro m hm'
            rw [hm] at hm'
            cases hm'
            refine ⟨fun _ => ?_, fun h => by cases h⟩
            rw [exec_at]
            match n with
            | 0 => rfl
            | 1 => simp [execAt, storageOf, performDir, Dir.set]
            | n + 2 => rw [List.take_of_length_le (by simp)]; simp [execAt, storageOf, performDir, Dir.set]
        | true =>
          simp only [Bool.not_true, Bool.false_eq_true, if_false]
          have early : ∀ n, n ≤ 6 → Kept (exec w (([.act (.unlink i .cloudIncomplete), .act (.create i .cloudIncomplete b.version),
              .act (.write i .cloudIncomplete b.version false),
              .act (.put i { b with written := false }), .act (.put i b),
              .act (.rename i .cloudIncomplete .cloud), .mem (some ⟨i, true, true, .id, false⟩)] : List Step).take n)) v := by
            intro n hn
            refine kept_same h0 ?_ ?_
            · rw [exec_mem]
              match n, hn with
              | 0, _ => rfl
              | 1, _ => rfl
              | 2, _ => rfl
              | 3, _ => rfl
              | 4, _ => rfl
              | 5, _ => rfl
              | 6, _ => rw [hm]; simp [memAfter, follow]
            · intro m hm'
              rw [hm] at hm'
              cases hm'
              refine ⟨fun _ => ?_, fun h => by cases h⟩
              rw [exec_at]
              match n, hn with
              | 0, _ => rfl
              | 1, _ => simp [execAt, storageOf, performDir, Dir.set]
              | 2, _ => simp [execAt, storageOf, performDir, Dir.set]
              | 3, _ => simp [execAt, storageOf, performDir, Dir.set]
              | 4, _ => simp [execAt, storageOf, performDir, Dir.set]
              | 5, _ => simp [execAt, storageOf, performDir, Dir.set]
              | 6, _ => simp [execAt, storageOf, performDir, Dir.set, Dir.get]
          by_cases hn : n ≤ 6
          · exact early n hn
          · rw [List.take_of_length_le (by simp; omega)]
            unfold Kept
            rw [exec_mem]
            refine ⟨rfl, rfl, fun _ => ⟨b, ?_, hw, hv⟩, fun _ => ⟨b, ?_, hw, hv⟩, fun h => by cases h⟩
            · simp only [memAfter]
              rw [exec_at]
              simp [execAt, storageOf, performDir, Dir.set, Dir.get, hb]
            · simp only [memAfter]
              rw [exec_at]
              simp [execAt, storageOf, performDir, Dir.set, Dir.get]

theorem kept_download {w : World} {v : Option Nat} (h : Kept w v) (n : Nat) : Kept (exec w ((plan w .download).take n)) v := by
  have h0 := h
  unfold Kept at h
  cases hm : w.mem with
  | none => simp only [plan, hm]; exact kept_nothing h0 (.inl rfl) n
  | some m =>
    rw [hm] at h
    obtain ⟨i, mi, mc, fd, cl⟩ := m
    obtain ⟨rfl, rfl, h3, h4, h5⟩ := h
    dsimp only at h3 h4 h5
    simp only [plan, hm]
    cases mi with
    | true => exact kept_nothing h0 (.inl rfl) n
    | false =>
      cases mc with
      | false => exact kept_nothing h0 (.inl rfl) n
      | true =>
        obtain ⟨b, hb, hw, hv⟩ := h4 rfl
        simp only [Bool.false_eq_true, if_false, Bool.not_true, downloadSteps, hb]
        cases ho : b.opens with
        | false =>
          simp only [Bool.not_false, if_true]
          refine kept_same h0 ?_ ?_
          · rw [exec_mem]
            match n with
            | 0 => rfl
            | 1 => rfl
            | 2 => rfl
            | n + 3 => rw [List.take_of_length_le (by simp)]; rfl
          · intro m hm'
            rw [hm] at hm'
            cases hm'
            refine ⟨fun h => (by cases h), fun _ => ?_⟩
            rw [exec_at]
            match n with
            | 0 => rfl
            | 1 => simp [execAt, storageOf, performDir, Dir.set]
            | 2 => simp [execAt, storageOf, performDir, Dir.set]
            | n + 3 => rw [List.take_of_length_le (by simp)]; simp [execAt, storageOf, performDir, Dir.set]
        | true =>
          simp only [Bool.not_true, Bool.false_eq_true, if_false, List.cons_append, List.nil_append]
          by_cases hn : n ≤ 4
          · refine kept_same h0 ?_ ?_
            · rw [exec_mem]
              match n, hn with
              | 0, _ => rfl
              | 1, _ => rfl
              | 2, _ => rfl
              | 3, _ => rfl
              | 4, _ => rw [hm]; simp [memAfter, follow]
            · intro m hm'
              rw [hm] at hm'
              cases hm'
              refine ⟨fun h => (by cases h), fun _ => ?_⟩
              rw [exec_at]
              match n, hn with
              | 0, _ => rfl
              | 1, _ => simp [execAt, storageOf, performDir, Dir.set]
              | 2, _ => simp [execAt, storageOf, performDir, Dir.set]
              | 3, _ => simp [execAt, storageOf, performDir, Dir.set]
              | 4, _ => simp [execAt, storageOf, performDir, Dir.set, Dir.get]
          · rw [List.take_of_length_le (by simp; omega)]
            unfold Kept
            rw [exec_mem]
            refine ⟨rfl, rfl, fun _ => ⟨{ version := b.version, written := true, tail := false }, ?_, rfl, hv⟩, fun _ => ⟨b, ?_, hw, hv⟩,
              fun h => by cases h⟩
            · simp only [memAfter]
              rw [exec_at]
              simp [execAt, storageOf, performDir, Dir.set, Dir.get]
            · simp only [memAfter]
              rw [exec_at]
              simp [execAt, storageOf, performDir, Dir.set, Dir.get, hb]

theorem kept_create {w : World} {v : Option Nat} (h : Kept w v) (s n : Nat) : Kept (exec w ((plan w (.create s)).take n)) v := by
  cases hm : w.mem with
  | some m => simp only [plan, hm]; exact kept_nothing h (.inl rfl) n
  | none =>
    have h0 := h
    unfold Kept at h
    rw [hm] at h
    simp only [plan, hm]
    match n with
    | 0 => exact h0
    | n + 1 =>
      rw [List.take_of_length_le (by simp)]
      exact ⟨rfl, rfl, fun h => (by cases h), fun h => (by cases h), fun _ _ => h⟩

/-- A refresh whose steps are these. -/
theorem refresh_steps {w : World} {i j : Nat} {mi : Bool} {v : Option Nat} (h0 : Kept w v) (hm : w.mem = some ⟨i, mi, false, .id, false⟩)
    (x : Nat) (tail : Bool) :
    Kept (exec w (refreshSteps w.disk ⟨i, mi, false, .id, false⟩ j x tail)) (some x) ∧
    (∀ n, n ≤ 2 → Kept (exec w ((refreshSteps w.disk ⟨i, mi, false, .id, false⟩ j x tail).take n)) v) ∧
    (∀ n, 2 < n → Readable (exec w ((refreshSteps w.disk ⟨i, mi, false, .id, false⟩ j x tail).take n)) x) := by
  have hk : Kept (exec w (refreshSteps w.disk ⟨i, mi, false, .id, false⟩ j x tail)) (some x) := by
    unfold Kept
    rw [exec_mem]
    simp only [memAfter, refreshSteps, follow, and_self, if_true]
    refine ⟨trivial, trivial, fun _ => ⟨{ version := x, written := true, tail := (w.disk j).incomplete.isSome && tail }, ?_, rfl, rfl⟩,
      fun h => (by cases h), fun h => (by cases h)⟩
    rw [exec_at]
    by_cases e : i = j
    · subst e
      simp [execAt, storageOf, performDir, Dir.set, Dir.get]
    · simp [execAt, storageOf, performDir, Dir.set, Dir.get, e]
  refine ⟨hk, ?_, ?_⟩
  · intro n hn
    refine kept_same h0 ?_ ?_
    · rw [exec_mem]
      unfold refreshSteps
      match n, hn with
      | 0, _ => rfl
      | 1, _ => rfl
      | 2, _ => rfl
    · intro m hm'
      rw [hm] at hm'
      cases hm'
      refine ⟨fun _ => ?_, fun h => by cases h⟩
      rw [exec_at]
      unfold refreshSteps
      by_cases e : j = i
      · subst e
        match n, hn with
        | 0, _ => rfl
        | 1, _ => simp [execAt, storageOf, performDir, Dir.set]
        | 2, _ => simp [execAt, storageOf, performDir, Dir.set]
      · match n, hn with
        | 0, _ => rfl
        | 1, _ => simp [execAt, storageOf, e]
        | 2, _ => simp [execAt, storageOf, e]
  · intro n hn
    match n, hn with
    | 3, _ =>
      refine ⟨{ version := x, written := true, tail := (w.disk j).incomplete.isSome && tail }, ?_, rfl, rfl⟩
      unfold content
      rw [exec_mem]
      simp only [refreshSteps, List.take, memAfter, follow, if_true, Bool.false_eq_true, if_false]
      rw [exec_at]
      simp [execAt, storageOf, performDir, Dir.set, Dir.get]
    | 4, _ =>
      refine ⟨{ version := x, written := true, tail := (w.disk j).incomplete.isSome && tail }, ?_, rfl, rfl⟩
      unfold content
      rw [exec_mem]
      simp only [refreshSteps, List.take, memAfter, follow, if_true, Bool.false_eq_true, if_false, and_self]
      rw [exec_at]
      simp [execAt, storageOf, performDir, Dir.set, Dir.get]
    | 5, _ =>
      refine ⟨{ version := x, written := true, tail := (w.disk j).incomplete.isSome && tail }, ?_, rfl, rfl⟩
      unfold content
      rw [exec_mem]
      simp only [refreshSteps, List.take, memAfter, follow, if_true, Bool.false_eq_true, if_false, and_self]
      rw [exec_at]
      by_cases e : i = j
      · subst e
        simp [execAt, storageOf, performDir, Dir.set, Dir.get]
      · simp [execAt, storageOf, performDir, Dir.set, Dir.get, e]
    | n + 6, _ =>
      rw [List.take_of_length_le (by simp [refreshSteps])]
      exact kept_readable hk

theorem kept_refresh {w : World} {v : Option Nat} (h : Kept w v) (t : Option Nat) (x : Nat) (tail : Bool) :
    Kept (exec w (plan w (.refresh t x tail))) (expected w.mem v (.refresh t x tail)) ∧
    (∀ n, n ≤ 2 → Kept (exec w ((plan w (.refresh t x tail)).take n)) v) ∧
    (∀ n, Kept (exec w ((plan w (.refresh t x tail)).take n)) v ∨ Readable (exec w ((plan w (.refresh t x tail)).take n)) x) := by
  have h0 := h
  unfold Kept at h
  cases hm : w.mem with
  | none =>
    simp only [plan, hm, expected]
    exact ⟨h0, fun n _ => kept_nothing h0 (.inl rfl) n, fun n => .inl (kept_nothing h0 (.inl rfl) n)⟩
  | some m =>
    rw [hm] at h
    obtain ⟨i, mi, mc, fd, cl⟩ := m
    obtain ⟨rfl, rfl, h3, h4, h5⟩ := h
    simp only [plan, hm, expected]
    have idle : ∀ {l : List Step}, l = [] ∨ l = [.fail] → Kept (exec w l) v ∧ (∀ n, n ≤ 2 → Kept (exec w (l.take n)) v) ∧
        (∀ n, Kept (exec w (l.take n)) v ∨ Readable (exec w (l.take n)) x) := by
      intro l hl
      refine ⟨?_, fun n _ => kept_nothing h0 hl n, fun n => .inl (kept_nothing h0 hl n)⟩
      have := kept_nothing h0 hl 5
      rw [List.take_of_length_le (by rcases hl with rfl | rfl <;> simp)] at this
      exact this
    have work : ∀ j, mc = false →
        Kept (exec w (refreshSteps w.disk ⟨i, mi, mc, .id, false⟩ j x tail)) (some x) ∧
        (∀ n, n ≤ 2 → Kept (exec w ((refreshSteps w.disk ⟨i, mi, mc, .id, false⟩ j x tail).take n)) v) ∧
        (∀ n, Kept (exec w ((refreshSteps w.disk ⟨i, mi, mc, .id, false⟩ j x tail).take n)) v ∨
          Readable (exec w ((refreshSteps w.disk ⟨i, mi, mc, .id, false⟩ j x tail).take n)) x) := by
      intro j e
      subst e
      obtain ⟨k1, k2, k3⟩ := refresh_steps h0 hm (j := j) x tail
      refine ⟨k1, k2, fun n => ?_⟩
      by_cases hn : n ≤ 2
      · exact .inl (k2 n hn)
      · exact .inr (k3 n (by omega))
    cases mc with
    | true => exact idle (.inr rfl)
    | false =>
      simp only [Bool.false_eq_true, if_false]
      cases t with
      | none => exact work i rfl
      | some j =>
        dsimp only
        by_cases e : j = i
        · subst e
          simp only [if_true]
          exact idle (.inl rfl)
        · rw [if_neg e, if_neg (by simpa using e)]
          exact work j rfl

theorem kept_drop {w : World} {v : Option Nat} (h : Kept w v) (c l : Bool) (hc : Careful w.mem (.drop c l)) :
    Kept (exec w (plan w (.drop c l))) v ∧ ∀ n, Mild (.drop c l) n → Kept (exec w ((plan w (.drop c l)).take n)) v := by
  have h0 := h
  unfold Kept at h
  cases hm : w.mem with
  | none =>
    simp only [plan, hm]
    exact ⟨h0, fun n _ => kept_nothing h0 (.inl rfl) n⟩
  | some m =>
    rw [hm] at h hc
    obtain ⟨i, mi, mc, fd, cl⟩ := m
    obtain ⟨rfl, rfl, h3, h4, h5⟩ := h
    dsimp only at h3 h4 h5
    simp only [plan, hm, dropSteps]
    cases c <;> cases l
    · simp only [Bool.false_and, Bool.false_eq_true, if_false, List.append_nil]
      exact ⟨h0, fun n _ => kept_nothing h0 (.inl rfl) n⟩
    · -- the local copy
      obtain ⟨y, hy, hyc⟩ := hc
      cases hy
      dsimp only at hyc
      subst hyc
      simp only [Bool.false_and, Bool.false_eq_true, if_false, List.append_nil, Bool.true_and, List.nil_append]
      cases mi with
      | false => exact ⟨h0, fun n _ => kept_nothing h0 (.inl rfl) n⟩
      | true =>
        obtain ⟨b, hb, hw, hv⟩ := h4 rfl
        refine ⟨?_, ?_⟩
        · unfold Kept
          rw [exec_mem]
          refine ⟨rfl, rfl, fun h => (by cases h), fun _ => ⟨b, ?_, hw, hv⟩, fun _ h => by cases h⟩
          simp only [memAfter, if_true]
          rw [exec_at]
          simp [execAt, storageOf, performDir, Dir.set, hb]
        · intro n hn
          have hn : n = 0 := hn
          subst hn
          exact h0
    · -- the copy in the cloud
      obtain ⟨y, hy, hyc⟩ := hc
      cases hy
      dsimp only at hyc
      subst hyc
      simp only [Bool.false_and, Bool.false_eq_true, if_false, List.append_nil, Bool.true_and, Bool.and_false]
      cases mc with
      | false => exact ⟨h0, fun n _ => kept_nothing h0 (.inl rfl) n⟩
      | true =>
        obtain ⟨b, hb, hw, hv⟩ := h3 rfl
        refine ⟨?_, ?_⟩
        · unfold Kept
          rw [exec_mem]
          refine ⟨rfl, rfl, fun _ => ⟨b, ?_, hw, hv⟩, fun h => (by cases h), fun h => by cases h⟩
          simp only [memAfter, if_true]
          rw [exec_at]
          simp [execAt, storageOf, performDir, Dir.set, hb]
        · intro n hn
          have hn : n ≤ 1 := hn
          match n, hn with
          | 0, _ => exact h0
          | 1, _ =>
            refine kept_same h0 rfl ?_
            intro m hm'
            rw [hm] at hm'
            cases hm'
            simp only [if_true]
            rw [exec_at]
            simp [execAt, storageOf, performDir, Dir.set]
    · exact hc.elim

/-- A careful event with mild errors. -/
theorem gentle_step {order : List Nat} {w : World} {v : Option Nat} (h : Kept w v) (e : Event) (hg : Gentle Mild w e) :
    ∃ w' v', step order w e = some w' ∧ Kept w' v' ∧ (v ≠ none → v' ≠ none) := by
  cases e with
  | done o =>
    refine ⟨exec w (plan w o), ?_⟩
    cases o with
    | create s =>
      refine ⟨v, rfl, ?_, id⟩
      have := kept_create h s 5
      rw [List.take_of_length_le (by unfold plan; split <;> simp_all)] at this
      exact this
    | refresh t x tail =>
      refine ⟨_, rfl, (kept_refresh h t x tail).1, ?_⟩
      intro hv
      simp only [expected]
      cases w.mem with
      | none => exact hv
      | some m =>
        dsimp only
        split
        · exact hv
        · split
          · exact hv
          · simp
    | upload =>
      refine ⟨v, rfl, ?_, id⟩
      have := kept_upload h (plan w .upload).length
      rw [List.take_length] at this
      exact this
    | download =>
      refine ⟨v, rfl, ?_, id⟩
      have := kept_download h (plan w .download).length
      rw [List.take_length] at this
      exact this
    | drop c l => exact ⟨v, rfl, (kept_drop h c l hg).1, id⟩
  | error o n =>
    refine ⟨_, v, rfl, ?_, id⟩
    cases o with
    | create s => exact kept_create h s n
    | refresh t x tail => exact (kept_refresh h t x tail).2.1 n hg.2
    | upload => exact kept_upload h n
    | download => exact kept_download h n
    | drop c l => exact (kept_drop h c l hg.1).2 n hg.2
  | crash o n r => exact hg.elim
  | restart r => exact hg.elim

theorem gentle_run {order : List Nat} : ∀ (l : List Event) {w : World} {v : Option Nat}, Kept w v → All order (Gentle Mild) w l →
    ∃ w' v', run order w l = some w' ∧ Kept w' v'
  | [], w, v, h, _ => ⟨w, v, rfl, h⟩
  | e :: l, w, v, h, ha => by
    obtain ⟨w', v', hs, hk, _⟩ := gentle_step (order := order) h e ha.1
    obtain ⟨w2, v2, h2, hk2⟩ := gentle_run l hk (ha.2 w' hs)
    refine ⟨w2, v2, ?_, hk2⟩
    rw [run, hs]
    exact h2

/-- The last event may be a refresh that fails at any step. -/
theorem late_step {order : List Nat} {w : World} {v : Nat} (h : Kept w (some v)) (e : Event) (hg : Gentle Late w e) :
    ∃ w' v', step order w e = some w' ∧ Readable w' v' := by
  by_cases hm : Gentle Mild w e
  · obtain ⟨w', v', hs, hk, hv⟩ := gentle_step (order := order) h e hm
    cases v' with
    | none => exact (hv (by simp) rfl).elim
    | some v' => exact ⟨w', v', hs, kept_readable hk⟩
  · cases e with
    | done o => exact (hm hg).elim
    | crash o n r => exact hg.elim
    | restart r => exact hg.elim
    | error o n =>
      cases o with
      | refresh t x tail =>
        rcases (kept_refresh h t x tail).2.2 n with hk | hk
        · exact ⟨_, v, rfl, kept_readable hk⟩
        · exact ⟨_, x, rfl, hk⟩
      | _ => exact (hm hg).elim

theorem start_kept : Kept start none := rfl

/-! Crashes. -/

theorem stored_readable {w : World} {v : Nat} (h : Stored w (some v)) : Readable w v := ⟨full v, h, rfl, rfl⟩

theorem careful_expected {order : List Nat} {w : World} {v : Nat} (h : Rest order w (some v)) {o : Op} (hc : Careful w.mem o) :
    ∃ v', expected w.mem (some v) o = some v' := by
  unfold Rest at h
  cases hm : w.mem with
  | none => rw [hm] at h; cases h.1
  | some m =>
    rw [hm] at h hc
    obtain ⟨_, _, _, _, hs⟩ := h
    cases o with
    | create s => exact ⟨v, rfl⟩
    | upload => exact ⟨v, rfl⟩
    | download => exact ⟨v, rfl⟩
    | refresh t x tail =>
      simp only [expected]
      split
      · exact ⟨v, rfl⟩
      · split
        · exact ⟨v, rfl⟩
        · exact ⟨x, rfl⟩
    | drop c l =>
      refine ⟨v, ?_⟩
      simp only [expected]
      rw [if_pos]
      generalize w.disk m.storage = D at hs
      generalize hi : m.id = a at hs
      generalize hcl : m.cloud = b at hs
      cases c <;> cases l
      · cases hs <;> rfl
      · obtain ⟨y, hy, hyc⟩ := hc
        cases hy
        rw [hcl] at hyc
        subst hyc
        simp
      · obtain ⟨y, hy, hyc⟩ := hc
        cases hy
        rw [hi] at hyc
        subst hyc
        simp
      · exact hc.elim

theorem crashing_step {order : List Nat} (hn : order.Nodup) {w : World} {v : Nat} (h : Rest order w (some v)) (e : Event) (hk : Known order e)
    (hc : Crashing w e) : ∃ w' v', step order w e = some w' ∧ Readable w' v' := by
  have he : NoError e := by cases e <;> first | trivial | exact hc
  obtain ⟨w', v', hs, hr, hsd⟩ := step_rest hn h e hk he
  refine ⟨w', ?_⟩
  cases e with
  | done o =>
    obtain ⟨x, hx⟩ := careful_expected h hc
    simp only [Sound] at hsd
    rw [hx] at hsd
    exact ⟨x, hs, stored_readable hsd⟩
  | crash o n recs =>
    obtain ⟨x, hx⟩ := careful_expected h hc
    simp only [Sound] at hsd
    rw [hx] at hsd
    rcases hsd with hsd | hsd
    · exact ⟨v, hs, stored_readable hsd⟩
    · exact ⟨x, hs, stored_readable hsd⟩
  | restart recs => exact ⟨v, hs, stored_readable hsd⟩
  | error o n => exact hc.elim

end Verif.C41
