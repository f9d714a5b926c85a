import Verif.Spec.C61

namespace Verif.C61
open Directory

/-- Every use has its lock, descriptors belong to the handle that has them. -/
structure Inv (w : World) (us : List Use) : Prop where
  lt : ∀ c ∈ w.descs, c.no < w.nextDesc
  own : ∀ v ∈ w.envs, ∀ n, v.fd = some n → n < w.nextDesc ∧ ∀ c ∈ w.descs, c.no = n → c.env = v.id
  hold : ∀ u ∈ us, ∃ c ∈ w.descs, c.locked = true ∧ c.env = u.env ∧ c.proc = u.proc ∧ c.dir = u.dir
  excl : Exclusive us

theorem find_id {w : World} {e : Nat} {v : Env} (h : w.envs.find? (fun v => decide (v.id = e)) = some v) :
    v ∈ w.envs ∧ v.id = e := by
  refine ⟨List.mem_of_find?_eq_some h, ?_⟩
  have := List.find?_some h
  simpa using this

theorem canLock_false {w : World} {d : Nat} (h : w.canLock d = false) : ∃ c ∈ w.descs, c.dir = d ∧ c.locked = true := by
  unfold World.canLock at h
  rw [List.all_eq_false] at h
  obtain ⟨c, hc, h⟩ := h
  simp only [Bool.not_eq_true', Bool.not_eq_false, Bool.and_eq_true, decide_eq_true_eq] at h
  exact ⟨c, hc, h⟩

theorem canLock_true {w : World} {d : Nat} (h : w.canLock d = true) : ∀ c ∈ w.descs, c.locked = true → c.dir ≠ d := by
  unfold World.canLock at h
  rw [List.all_eq_true] at h
  intro c hc hl hd
  have := h c hc
  simp [hd, hl] at this

theorem mem_setFd {w : World} {e : Nat} {fd : Option Nat} {v : Env} (h : v ∈ w.setFd e fd) :
    (v.id = e ∧ v.fd = fd ∧ ∃ v' ∈ w.envs, v'.id = e ∧ v.proc = v'.proc) ∨ (v ∈ w.envs ∧ v.id ≠ e) := by
  unfold World.setFd at h
  obtain ⟨v', hv, rfl⟩ := List.mem_map.1 h
  by_cases he : v'.id = e
  · rw [if_pos he]
    exact .inl ⟨he, rfl, v', hv, he, rfl⟩
  · rw [if_neg he]
    exact .inr ⟨hv, he⟩

/-- The four ways of opening. -/
theorem open_cases (w : World) (e d : Nat) (k : Luck) :
    (w.open_ e d k = (w, .noHandle)) ∨ (w.open_ e d k = (w, .failed)) ∨
    (∃ v, w.envs.find? (fun v => decide (v.id = e)) = some v ∧
      w.open_ e d k = ({ w with envs := w.setFd e none }, .failed)) ∨
    (∃ v lock a, w.envs.find? (fun v => decide (v.id = e)) = some v ∧
      w.open_ e d k = (⟨w.descs ++ [⟨w.nextDesc, e, v.proc, d, lock⟩], w.setFd e (some w.nextDesc), w.nextDesc + 1, w.nextEnv⟩, a) ∧
      ((lock = true ∧ w.canLock d = true ∧ (a = .done ∨ a = .failedInside)) ∨
       (lock = false ∧ (a = .failed ∨ (a = .inUse ∧ w.canLock d = false))))) := by
  unfold World.open_
  cases hf : w.envs.find? (fun v => decide (v.id = e)) with
  | none => exact .inl rfl
  | some v =>
    dsimp only
    cases k with
    | noDir => exact .inr (.inl rfl)
    | noOpen => exact .inr (.inr (.inl ⟨v, rfl, rfl⟩))
    | noLock => exact .inr (.inr (.inr ⟨v, false, .failed, rfl, rfl, .inr ⟨rfl, .inl rfl⟩⟩))
    | later =>
      cases hc : w.canLock d
      · exact .inr (.inr (.inr ⟨v, false, .inUse, rfl, by simp, .inr ⟨rfl, .inr ⟨rfl, rfl⟩⟩⟩))
      · exact .inr (.inr (.inr ⟨v, true, .failedInside, rfl, by simp, .inl ⟨rfl, rfl, .inr rfl⟩⟩))
    | fine =>
      cases hc : w.canLock d
      · exact .inr (.inr (.inr ⟨v, false, .inUse, rfl, by simp, .inr ⟨rfl, .inr ⟨rfl, rfl⟩⟩⟩))
      · exact .inr (.inr (.inr ⟨v, true, .done, rfl, by simp, .inl ⟨rfl, rfl, .inl rfl⟩⟩))

theorem procOf_eq {w : World} {e : Nat} {v : Env} (h : w.envs.find? (fun v => decide (v.id = e)) = some v) :
    procOf w e = v.proc := by unfold procOf; rw [h]

theorem inv_step {w : World} {us : List Use} (h : Inv w us) (op : Op) : Inv (step w op).1 (uses w us op) := by
  obtain ⟨lt, own, hold, excl⟩ := h
  cases op with
  | init p =>
    refine ⟨lt, ?_, hold, excl⟩
    intro v hv n hn
    rcases List.mem_append.1 hv with hv | hv
    · exact own v hv n hn
    · simp only [List.mem_cons, List.not_mem_nil, or_false] at hv
      subst hv
      cases hn
  | open_ e d k =>
    rcases open_cases w e d k with h | h | ⟨v, hf, h⟩ | ⟨v, lock, a, hf, h, hl⟩
    · simp only [uses, step, h]
      exact ⟨lt, own, hold, excl⟩
    · simp only [uses, step, h]
      exact ⟨lt, own, hold, excl⟩
    · simp only [uses, step, h]
      refine ⟨lt, ?_, hold, excl⟩
      intro v' hv n hn
      rcases mem_setFd hv with ⟨-, h2, -⟩ | ⟨h1, -⟩
      · rw [h2] at hn; cases hn
      · exact own v' h1 n hn
    · have hlt : ∀ c ∈ w.descs ++ [⟨w.nextDesc, e, v.proc, d, lock⟩], c.no < w.nextDesc + 1 := by
        intro c hc
        rcases List.mem_append.1 hc with hc | hc
        · have := lt c hc; omega
        · simp only [List.mem_cons, List.not_mem_nil, or_false] at hc
          subst hc
          dsimp only
          omega
      have hown : ∀ v' ∈ w.setFd e (some w.nextDesc), ∀ n, v'.fd = some n → n < w.nextDesc + 1 ∧
          ∀ c ∈ w.descs ++ [⟨w.nextDesc, e, v.proc, d, lock⟩], c.no = n → c.env = v'.id := by
        intro v' hv n hn
        rcases mem_setFd hv with ⟨h1, h2, -⟩ | ⟨h1, h2⟩
        · rw [h2] at hn
          cases hn
          refine ⟨by omega, fun c hc hcn => ?_⟩
          rcases List.mem_append.1 hc with hc | hc
          · have := lt c hc; omega
          · simp only [List.mem_cons, List.not_mem_nil, or_false] at hc
            subst hc
            exact h1.symm
        · obtain ⟨a1, a2⟩ := own v' h1 n hn
          refine ⟨by omega, fun c hc hcn => ?_⟩
          rcases List.mem_append.1 hc with hc | hc
          · exact a2 c hc hcn
          · simp only [List.mem_cons, List.not_mem_nil, or_false] at hc
            subst hc
            dsimp only at hcn
            omega
      have hhold : ∀ u ∈ us, ∃ c ∈ w.descs ++ [⟨w.nextDesc, e, v.proc, d, lock⟩],
          c.locked = true ∧ c.env = u.env ∧ c.proc = u.proc ∧ c.dir = u.dir := by
        intro u hu
        obtain ⟨c, hc, h⟩ := hold u hu
        exact ⟨c, List.mem_append_left _ hc, h⟩
      rcases hl with ⟨rfl, hcan, ha⟩ | ⟨rfl, ha⟩
      · have hu : uses w us (.open_ e d k) = us ++ [⟨e, v.proc, d⟩] := by
          simp only [uses, step, h, procOf_eq hf]
          rcases ha with rfl | rfl <;> rfl
        rw [hu]
        simp only [step, h]
        refine ⟨hlt, hown, ?_, ?_⟩
        · intro u hu
          rcases List.mem_append.1 hu with hu | hu
          · exact hhold u hu
          · simp only [List.mem_cons, List.not_mem_nil, or_false] at hu
            subst hu
            exact ⟨_, List.mem_append_right _ (List.mem_singleton.2 rfl), rfl, rfl, rfl, rfl⟩
        · unfold Exclusive
          rw [List.pairwise_append]
          refine ⟨excl, by simp, ?_⟩
          intro a hma b hb
          simp only [List.mem_cons, List.not_mem_nil, or_false] at hb
          subst hb
          obtain ⟨c, hc, h1, -, -, h2⟩ := hold a hma
          rw [← h2]
          exact canLock_true hcan c hc h1
      · have hu : uses w us (.open_ e d k) = us := by
          simp only [uses, step, h]
          rcases ha with rfl | ⟨rfl, -⟩ <;> rfl
        rw [hu]
        simp only [step, h]
        exact ⟨hlt, hown, hhold, excl⟩
  | free e =>
    simp only [uses, step]
    unfold World.free
    cases hf : w.envs.find? (fun v => decide (v.id = e)) with
    | none =>
      refine ⟨lt, own, ?_, excl.sublist List.filter_sublist⟩
      intro u hu
      exact hold u (List.mem_filter.1 hu).1
    | some v =>
      obtain ⟨hv, hid⟩ := find_id hf
      have hsub : ∀ c, c ∈ (match v.fd with
          | none => w.descs
          | some n => w.descs.filter (fun c => decide (c.no ≠ n))) → c ∈ w.descs := by
        intro c hc
        split at hc
        · exact hc
        · exact (List.mem_filter.1 hc).1
      refine ⟨fun c hc => lt c (hsub c hc), ?_, ?_, excl.sublist List.filter_sublist⟩
      · intro v' hv' n hn
        obtain ⟨a1, a2⟩ := own v' (List.mem_filter.1 hv').1 n hn
        exact ⟨a1, fun c hc => a2 c (hsub c hc)⟩
      · intro u hu
        obtain ⟨hu, hne⟩ := List.mem_filter.1 hu
        simp only [ne_eq, decide_eq_true_eq] at hne
        obtain ⟨c, hc, h1, h2, h3, h4⟩ := hold u hu
        refine ⟨c, ?_, h1, h2, h3, h4⟩
        dsimp only
        split
        · exact hc
        · rename_i n hn
          refine List.mem_filter.2 ⟨hc, ?_⟩
          simp only [ne_eq, decide_eq_true_eq]
          intro hcn
          have := (own v hv n hn).2 c hc hcn
          omega
  | exit p =>
    simp only [uses, step, World.exit]
    refine ⟨fun c hc => lt c (List.mem_filter.1 hc).1, ?_, ?_, excl.sublist List.filter_sublist⟩
    · intro v hv n hn
      obtain ⟨a1, a2⟩ := own v (List.mem_filter.1 hv).1 n hn
      exact ⟨a1, fun c hc => a2 c (List.mem_filter.1 hc).1⟩
    · intro u hu
      obtain ⟨hu, hne⟩ := List.mem_filter.1 hu
      simp only [ne_eq, decide_eq_true_eq] at hne
      obtain ⟨c, hc, h1, h2, h3, h4⟩ := hold u hu
      exact ⟨c, List.mem_filter.2 ⟨hc, by simp only [ne_eq, decide_eq_true_eq]; omega⟩, h1, h2, h3, h4⟩

theorem inv_play : ∀ (ops : List Op) (w : World) (us : List Use), Inv w us → Inv (play w us ops).1 (play w us ops).2 := by
  intro ops
  induction ops with
  | nil => intro w us h; exact h
  | cons op ops ih => intro w us h; exact ih _ _ (inv_step h op)

theorem inv_init : Inv {} [] := by
  refine ⟨?_, ?_, ?_, List.Pairwise.nil⟩
  all_goals intro _ h; cases h

/-- With handles that are opened once every lock belongs to a use. -/
structure Tidy (w : World) (us : List Use) (later : List Nat) : Prop where
  env : ∀ v ∈ w.envs, v.id < w.nextEnv
  uniq : w.envs.Pairwise fun a b => a.id ≠ b.id
  fd : ∀ v ∈ w.envs, v.id ∈ later → v.fd = none
  desc : ∀ c ∈ w.descs, ∃ v ∈ w.envs, v.id = c.env ∧ v.proc = c.proc ∧ v.fd = some c.no
  use : ∀ c ∈ w.descs, c.locked = true → ∃ u ∈ us, u.env = c.env ∧ u.proc = c.proc ∧ u.dir = c.dir

theorem uniq_eq {l : List Env} (h : l.Pairwise fun a b => a.id ≠ b.id) : ∀ a ∈ l, ∀ b ∈ l, a.id = b.id → a = b := by
  induction l with
  | nil => intro a ha; cases ha
  | cons x l ih =>
    obtain ⟨h1, h2⟩ := List.pairwise_cons.1 h
    intro a ha b hb e
    rcases List.mem_cons.1 ha with ha | ha
    · rcases List.mem_cons.1 hb with hb | hb
      · rw [ha, hb]
      · rw [ha] at e
        exact absurd e (h1 b hb)
    · rcases List.mem_cons.1 hb with hb | hb
      · rw [hb] at e
        exact absurd e.symm (h1 a ha)
      · exact ih h2 a ha b hb e

theorem setFd_ids {w : World} {e : Nat} {fd : Option Nat} (h : w.envs.Pairwise fun a b => a.id ≠ b.id) :
    (w.setFd e fd).Pairwise fun a b => a.id ≠ b.id := by
  unfold World.setFd
  rw [List.pairwise_map]
  refine h.imp fun {a b} hab => ?_
  split <;> split <;> exact hab

theorem setFd_keep {w : World} {e : Nat} {fd : Option Nat} {v : Env} (hv : v ∈ w.envs) (he : v.id ≠ e) : v ∈ w.setFd e fd :=
  List.mem_map.2 ⟨v, hv, if_neg he⟩

theorem setFd_has {w : World} {e : Nat} {fd : Option Nat} {v : Env} (hv : v ∈ w.envs) (he : v.id = e) :
    (⟨v.id, v.proc, fd⟩ : Env) ∈ w.setFd e fd :=
  List.mem_map.2 ⟨v, hv, if_pos he⟩

theorem setFd_env {w : World} {e : Nat} {fd : Option Nat} (h : ∀ v ∈ w.envs, v.id < w.nextEnv) :
    ∀ v ∈ w.setFd e fd, v.id < w.nextEnv := by
  intro v hv
  rcases mem_setFd hv with ⟨h1, -, v', h2, h3, -⟩ | ⟨h1, -⟩
  · have := h v' h2; omega
  · exact h v h1

theorem tidy_step {w : World} {us : List Use} {op : Op} {ops : List Op} (h : Tidy w us (opened (op :: ops)))
    (hn : (opened (op :: ops)).Nodup) : Tidy (step w op).1 (uses w us op) (opened ops) := by
  obtain ⟨henv, huniq, hfd, hdesc, huse⟩ := h
  cases op with
  | init p =>
    simp only [opened] at hfd
    refine ⟨?_, ?_, ?_, ?_, huse⟩
    · intro v hv
      rcases List.mem_append.1 hv with hv | hv
      · have := henv v hv
        show v.id < w.nextEnv + 1
        omega
      · simp only [List.mem_cons, List.not_mem_nil, or_false] at hv
        subst hv
        exact Nat.lt_succ_self _
    · show (w.envs ++ [(⟨w.nextEnv, p, none⟩ : Env)]).Pairwise fun (a b : Env) => a.id ≠ b.id
      rw [List.pairwise_append]
      refine ⟨huniq, by simp, ?_⟩
      intro a ha b hb
      simp only [List.mem_cons, List.not_mem_nil, or_false] at hb
      subst hb
      have := henv a ha
      dsimp only
      omega
    · intro v hv hl
      rcases List.mem_append.1 hv with hv | hv
      · exact hfd v hv hl
      · simp only [List.mem_cons, List.not_mem_nil, or_false] at hv
        subst hv
        rfl
    · intro c hc
      obtain ⟨v, hv, h⟩ := hdesc c hc
      exact ⟨v, List.mem_append_left _ hv, h⟩
  | open_ e d k =>
    simp only [opened, List.nodup_cons] at hn
    obtain ⟨hne, hn⟩ := hn
    simp only [opened, List.mem_cons] at hfd
    have hother : ∀ c ∈ w.descs, ∀ fd, ∃ v ∈ w.setFd e fd, v.id = c.env ∧ v.proc = c.proc ∧ v.fd = some c.no := by
      intro c hc fd
      obtain ⟨v, hv, h1, h2, h3⟩ := hdesc c hc
      refine ⟨v, setFd_keep hv ?_, h1, h2, h3⟩
      intro he
      rw [hfd v hv (.inl he)] at h3
      cases h3
    have hfd' : ∀ fd, ∀ v ∈ w.setFd e fd, v.id ∈ opened ops → v.fd = none := by
      intro fd v hv hl
      rcases mem_setFd hv with ⟨h1, -, -⟩ | ⟨h1, -⟩
      · rw [h1] at hl
        exact absurd hl hne
      · exact hfd v h1 (.inr hl)
    have hfd0 : ∀ v ∈ w.envs, v.id ∈ opened ops → v.fd = none := fun v hv hl => hfd v hv (.inr hl)
    rcases open_cases w e d k with h | h | ⟨v, hf, h⟩ | ⟨v, lock, a, hf, h, hl⟩
    · simp only [uses, step, h]
      exact ⟨henv, huniq, hfd0, hdesc, huse⟩
    · simp only [uses, step, h]
      exact ⟨henv, huniq, hfd0, hdesc, huse⟩
    · simp only [uses, step, h]
      exact ⟨setFd_env henv, setFd_ids huniq, hfd' none, fun c hc => hother c hc none, huse⟩
    · obtain ⟨hv, hid⟩ := find_id hf
      have hdesc' : ∀ c ∈ w.descs ++ [⟨w.nextDesc, e, v.proc, d, lock⟩], ∃ v ∈ w.setFd e (some w.nextDesc),
          v.id = c.env ∧ v.proc = c.proc ∧ v.fd = some c.no := by
        intro c hc
        rcases List.mem_append.1 hc with hc | hc
        · exact hother c hc _
        · simp only [List.mem_cons, List.not_mem_nil, or_false] at hc
          subst hc
          exact ⟨_, setFd_has hv hid, hid, rfl, rfl⟩
      rcases hl with ⟨rfl, hcan, ha⟩ | ⟨rfl, ha⟩
      · have hu : uses w us (.open_ e d k) = us ++ [⟨e, v.proc, d⟩] := by
          simp only [uses, step, h, procOf_eq hf]
          rcases ha with rfl | rfl <;> rfl
        rw [hu]
        simp only [step, h]
        refine ⟨setFd_env henv, setFd_ids huniq, hfd' _, hdesc', ?_⟩
        intro c hc hcl
        rcases List.mem_append.1 hc with hc | hc
        · obtain ⟨u, hu, h⟩ := huse c hc hcl
          exact ⟨u, List.mem_append_left _ hu, h⟩
        · simp only [List.mem_cons, List.not_mem_nil, or_false] at hc
          subst hc
          exact ⟨_, List.mem_append_right _ (List.mem_singleton.2 rfl), rfl, rfl, rfl⟩
      · have hu : uses w us (.open_ e d k) = us := by
          simp only [uses, step, h]
          rcases ha with rfl | ⟨rfl, -⟩ <;> rfl
        rw [hu]
        simp only [step, h]
        refine ⟨setFd_env henv, setFd_ids huniq, hfd' _, hdesc', ?_⟩
        intro c hc hcl
        rcases List.mem_append.1 hc with hc | hc
        · exact huse c hc hcl
        · simp only [List.mem_cons, List.not_mem_nil, or_false] at hc
          subst hc
          cases hcl
  | free e =>
    simp only [opened] at hfd
    simp only [uses, step]
    unfold World.free
    cases hf : w.envs.find? (fun v => decide (v.id = e)) with
    | none =>
      refine ⟨henv, huniq, hfd, hdesc, ?_⟩
      intro c hc hl
      obtain ⟨u, hu, h1, h2⟩ := huse c hc hl
      refine ⟨u, List.mem_filter.2 ⟨hu, ?_⟩, h1, h2⟩
      simp only [ne_eq, decide_eq_true_eq]
      intro hue
      obtain ⟨v, hv, hvi, -⟩ := hdesc c hc
      rw [List.find?_eq_none] at hf
      have := hf v hv
      simp only [decide_eq_true_eq] at this
      omega
    | some v =>
      obtain ⟨hv, hid⟩ := find_id hf
      have hkeep : ∀ c, c ∈ (match v.fd with
          | none => w.descs
          | some n => w.descs.filter (fun c => decide (c.no ≠ n))) → c ∈ w.descs ∧ c.env ≠ e := by
        intro c hc
        have hmem : c ∈ w.descs ∧ v.fd ≠ some c.no := by
          split at hc
          · rename_i h0
            exact ⟨hc, by rw [h0]; simp⟩
          · rename_i n h0
            obtain ⟨h1, h2⟩ := List.mem_filter.1 hc
            simp only [ne_eq, decide_eq_true_eq] at h2
            refine ⟨h1, ?_⟩
            rw [h0]
            simp only [ne_eq, Option.some.injEq]
            omega
        refine ⟨hmem.1, fun hce => ?_⟩
        obtain ⟨v', hv', h1, h2, h3⟩ := hdesc c hmem.1
        have := uniq_eq huniq v hv v' hv' (by omega)
        subst this
        exact hmem.2 h3
      refine ⟨fun v' hv' => henv v' (List.mem_filter.1 hv').1, huniq.sublist List.filter_sublist,
        fun v' hv' => hfd v' (List.mem_filter.1 hv').1, ?_, ?_⟩
      · intro c hc
        obtain ⟨h1, h2⟩ := hkeep c hc
        obtain ⟨v', hv', h3, h4⟩ := hdesc c h1
        refine ⟨v', List.mem_filter.2 ⟨hv', ?_⟩, h3, h4⟩
        simp only [ne_eq, decide_eq_true_eq]
        omega
      · intro c hc hl
        obtain ⟨h1, h2⟩ := hkeep c hc
        obtain ⟨u, hu, h3, h4⟩ := huse c h1 hl
        refine ⟨u, List.mem_filter.2 ⟨hu, ?_⟩, h3, h4⟩
        simp only [ne_eq, decide_eq_true_eq]
        omega
  | exit p =>
    simp only [opened] at hfd
    simp only [uses, step, World.exit]
    refine ⟨fun v' hv' => henv v' (List.mem_filter.1 hv').1, huniq.sublist List.filter_sublist,
      fun v' hv' => hfd v' (List.mem_filter.1 hv').1, ?_, ?_⟩
    · intro c hc
      obtain ⟨h1, h2⟩ := List.mem_filter.1 hc
      simp only [ne_eq, decide_eq_true_eq] at h2
      obtain ⟨v', hv', h3, h4, h5⟩ := hdesc c h1
      refine ⟨v', List.mem_filter.2 ⟨hv', ?_⟩, h3, h4, h5⟩
      simp only [ne_eq, decide_eq_true_eq]
      omega
    · intro c hc hl
      obtain ⟨h1, h2⟩ := List.mem_filter.1 hc
      simp only [ne_eq, decide_eq_true_eq] at h2
      obtain ⟨u, hu, h3, h4, h5⟩ := huse c h1 hl
      refine ⟨u, List.mem_filter.2 ⟨hu, ?_⟩, h3, h4, h5⟩
      simp only [ne_eq, decide_eq_true_eq]
      omega

theorem tidy_play : ∀ (ops : List Op) (w : World) (us : List Use), Tidy w us (opened ops) → (opened ops).Nodup →
    Tidy (play w us ops).1 (play w us ops).2 [] := by
  intro ops
  induction ops with
  | nil => intro w us h _; exact h
  | cons op ops ih =>
    intro w us h hn
    refine ih _ _ (tidy_step h hn) ?_
    cases op with
    | open_ e d k => exact (List.nodup_cons.1 hn).2
    | _ => exact hn

theorem tidy_init (l : List Nat) : Tidy {} [] l := by
  refine ⟨?_, List.Pairwise.nil, ?_, ?_, ?_⟩
  all_goals intro _ h; cases h

theorem refused {w : World} {e d : Nat} {k : Luck} (h : (w.open_ e d k).2 = .inUse) : w.canLock d = false := by
  rcases open_cases w e d k with h' | h' | ⟨v, hf, h'⟩ | ⟨v, lock, a, hf, h', hl⟩
  · rw [h'] at h; cases h
  · rw [h'] at h; cases h
  · rw [h'] at h; cases h
  · rw [h'] at h
    dsimp only at h
    subst h
    rcases hl with ⟨-, -, ha⟩ | ⟨-, ha⟩
    · rcases ha with ha | ha <;> cases ha
    · rcases ha with ha | ⟨-, hc⟩
      · cases ha
      · exact hc

end Verif.C61
