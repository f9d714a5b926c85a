import Verif.Proofs.C27

namespace Verif.C27
open Files

theorem torn1 {order : List Nat} {d : Disk} {i : Nat} {D : Dir} {a : List Act} {D' : Dir} {b c : Bool} {v : Option Nat} (hi : i ∈ order)
    (he : ∀ s, s ≠ i → Empty (d s)) (hd : d i = D) (hb : Broken D a i D' b c v) : Torn order d v :=
  .one i a D' b c v hi he (hd ▸ hb)

/-- Steps on one storage only. -/
def Only (i : Nat) : Act → Prop
  | .create s _ _ => s = i
  | .write s _ _ _ => s = i
  | .rename s _ _ => s = i
  | .unlink s _ => s = i
  | .put s _ => s = i
  | .del s => s = i

theorem perform_other {i : Nat} {a : Act} (h : Only i a) (d : Disk) {s : Nat} (hs : s ≠ i) : perform d a s = d s := by
  cases a <;> simp only [Only] at h <;> subst h <;> simp only [perform] <;> exact on_ne _ _ hs

theorem exec_other {i : Nat} : ∀ (l : List Step) (w : World), (∀ a, Step.act a ∈ l → Only i a) → ∀ s, s ≠ i → (exec w l).disk s = w.disk s
  | [], _, _, _, _ => rfl
  | .act a :: l, w, h, s, hs => by
    rw [exec, exec_other l _ (fun x hx => h x (List.mem_cons_of_mem _ hx)) s hs]
    exact perform_other (h a (List.mem_cons_self ..)) _ hs
  | .mem m :: l, w, h, s, hs => by
    rw [exec, exec_other l _ (fun x hx => h x (List.mem_cons_of_mem _ hx)) s hs]
  | .fail :: l, w, h, s, hs => rfl

/-- An act in its own directory. -/
def performDir (x : Dir) : Act → Dir
  | .create _ k v => x.set k (some { version := v, written := false, tail := false })
  | .write _ k v t => x.set k (some { version := v, written := true, tail := t })
  | .rename _ k l =>
    match x.get k with
    | none => x
    | some b => (x.set l (some b)).set k none
  | .unlink _ k => x.set k none
  | .put _ b => { x with remote := some b }
  | .del _ => { x with remote := none }

theorem perform_self {i : Nat} {a : Act} (h : Only i a) (d : Disk) : perform d a i = performDir (d i) a := by
  cases a <;> simp only [Only] at h <;> subst h <;> simp only [perform, performDir] <;> exact on_eq _ _ _

/-- Steps in one directory. -/
def execDir (x : Dir) : List Step → Dir
  | [] => x
  | .act a :: l => execDir (performDir x a) l
  | .mem _ :: l => execDir x l
  | .fail :: _ => x

theorem exec_self {i : Nat} : ∀ (l : List Step) (w : World), (∀ a, Step.act a ∈ l → Only i a) → (exec w l).disk i = execDir (w.disk i) l
  | [], _, _ => rfl
  | .act a :: l, w, h => by
    rw [exec, exec_self l _ (fun x hx => h x (List.mem_cons_of_mem _ hx)), execDir]
    dsimp only
    rw [perform_self (h a (List.mem_cons_self ..))]
  | .mem m :: l, w, h => by
    rw [exec, exec_self l _ (fun x hx => h x (List.mem_cons_of_mem _ hx)), execDir]
  | .fail :: l, w, h => rfl

/-- The memory after some steps. -/
def memAfter (m : Option Mem) : List Step → Option Mem
  | [] => m
  | .act a :: l => memAfter (follow m a) l
  | .mem m :: l => memAfter m l
  | .fail :: _ => m

theorem exec_mem : ∀ (l : List Step) (w : World), (exec w l).mem = memAfter w.mem l
  | [], _ => rfl
  | .act _ :: l, w => by rw [exec, exec_mem l, memAfter]
  | .mem _ :: l, w => by rw [exec, exec_mem l, memAfter]
  | .fail :: _, _ => rfl

/-- An operation in one directory: all its prefixes leave a broken directory of
the old or the new version. -/
theorem one_dir {order : List Nat} {w : World} {i : Nat} (hi : i ∈ order) (he : ∀ s, s ≠ i → Empty (w.disk s)) {l : List Step}
    (hl : ∀ a, Step.act a ∈ l → Only i a) {v v' : Option Nat}
    (h : ∀ n, ∃ a D' b c, Broken (execDir (w.disk i) (l.take n)) a i D' b c v ∨ Broken (execDir (w.disk i) (l.take n)) a i D' b c v') (n : Nat) :
    Torn order (exec w (l.take n)).disk v ∨ Torn order (exec w (l.take n)).disk v' := by
  have hl' : ∀ a, Step.act a ∈ l.take n → Only i a := fun a ha => hl a (List.mem_of_mem_take ha)
  have ho : ∀ s, s ≠ i → Empty ((exec w (l.take n)).disk s) := by
    intro s hs
    rw [exec_other _ _ hl' s hs]
    exact he s hs
  obtain ⟨a, D', b, c, h | h⟩ := h n
  · exact .inl (torn1 hi ho (exec_self _ _ hl') h)
  · exact .inr (torn1 hi ho (exec_self _ _ hl') h)

theorem rest_one {order : List Nat} {w : World} {i : Nat} (hi : i ∈ order) (he : ∀ s, s ≠ i → Empty (w.disk s)) {l : List Step}
    (hl : ∀ a, Step.act a ∈ l → Only i a) {v : Option Nat} {m : Mem} (hm : memAfter w.mem l = some m) (hs : m.storage = i) (hf : m.fd = .id) (hc : m.closed = false)
    (h : Settled (execDir (w.disk i) l) m.id m.cloud v) : Rest order (exec w l) v := by
  unfold Rest
  rw [exec_mem, hm]
  dsimp only
  subst hs
  refine ⟨hi, ?_, hf, hc, ?_⟩
  · intro s hs
    rw [exec_other _ _ hl s hs]
    exact he s hs
  · rw [exec_self _ _ hl]
    exact h

/-- An operation that does nothing. -/
theorem op_nothing {order : List Nat} {w : World} {v v' : Option Nat} (h : Rest order w v) {l : List Step} (hl : l = [] ∨ l = [.fail]) (hv : v' = v) :
    Rest order (exec w l) v' ∧ ∀ n, Torn order (exec w (l.take n)).disk v ∨ Torn order (exec w (l.take n)).disk v' := by
  subst hv
  have e : exec w l = w := by rcases hl with rfl | rfl <;> rfl
  have e2 : ∀ n, exec w (l.take n) = w := by
    intro n
    rcases hl with rfl | rfl
    · rw [List.take_nil]; rfl
    · rcases n with _ | n
      · rfl
      · rw [List.take_succ_cons]; rfl
  rw [e]
  exact ⟨h, fun n => by rw [e2]; exact .inl (torn_rest h)⟩

/-- What an operation is shown to do. -/
def Does (order : List Nat) (w : World) (v : Option Nat) (o : Op) : Prop :=
  Rest order (exec w (plan w o)) (expected w.mem v o) ∧
    ∀ n, Torn order (exec w ((plan w o).take n)).disk v ∨ Torn order (exec w ((plan w o).take n)).disk (expected w.mem v o)

theorem does_upload {order : List Nat} {w : World} {v : Option Nat} (h : Rest order w v) : Does order w v .upload := by
  unfold Does
  cases hm : w.mem with
  | none =>
    simp only [plan, hm, expected]
    exact op_nothing h (.inl rfl) rfl
  | some m =>
    have h0 := h
    unfold Rest at h
    rw [hm] at h
    obtain ⟨hi, he, hf, hcl, hs⟩ := h
    obtain ⟨i, mi, mc, fd, closed⟩ := m
    dsimp only at hi he hf hcl hs
    subst hf hcl
    simp only [plan, hm, expected]
    generalize hD : w.disk i = D at hs
    cases hs with
    | none r => exact op_nothing h0 (.inr rfl) rfl
    | cloud v => exact op_nothing h0 (.inl rfl) rfl
    | both v => exact op_nothing h0 (.inl rfl) rfl
    | «local» v r =>
      simp only [Bool.false_eq_true, if_false, Bool.not_true]
      have hu : uploadSteps w.disk ⟨i, true, false, .id, false⟩ = [.act (.unlink i .cloudIncomplete), .act (.create i .cloudIncomplete v),
          .act (.write i .cloudIncomplete v false), .act (.put i { full v with written := false }), .act (.put i (full v)),
          .act (.rename i .cloudIncomplete .cloud), .mem (some ⟨i, true, true, .id, false⟩)] := by
        simp [uploadSteps, hD, Blob.opens, full]
      rw [hu]
      refine ⟨rest_one hi he ?_ (m := ⟨i, true, true, .id, false⟩) rfl rfl rfl rfl ?_, one_dir hi he ?_ ?_⟩
      · simp [Only]
      · rw [hD]
        exact .both v
      · simp [Only]
      · intro n
        rw [hD]
        match n with
        | 0 => exact ⟨_, _, _, _, .inl (.settled _ _ _ _ _ (.local v r))⟩
        | 1 => exact ⟨_, _, _, _, .inl (.settled _ _ _ _ _ (.local v r))⟩
        | 2 => exact ⟨_, _, _, _, .inl (.idCloudIncomplete v _ _ _)⟩
        | 3 => exact ⟨_, _, _, _, .inl (.idCloudIncomplete v _ _ _)⟩
        | 4 => exact ⟨_, _, _, _, .inl (.idCloudIncomplete v _ _ _)⟩
        | 5 => exact ⟨_, _, _, _, .inl (.idCloudIncomplete v _ _ _)⟩
        | 6 => exact ⟨_, _, _, _, .inl (.settled _ _ _ _ _ (.both v))⟩
        | n + 7 => rw [List.take_of_length_le (by simp)]; exact ⟨_, _, _, _, .inl (.settled _ _ _ _ _ (.both v))⟩

theorem does_download {order : List Nat} {w : World} {v : Option Nat} (h : Rest order w v) : Does order w v .download := by
  unfold Does
  cases hm : w.mem with
  | none =>
    simp only [plan, hm, expected]
    exact op_nothing h (.inl rfl) rfl
  | some m =>
    have h0 := h
    unfold Rest at h
    rw [hm] at h
    obtain ⟨hi, he, hf, hcl, hs⟩ := h
    obtain ⟨i, mi, mc, fd, closed⟩ := m
    dsimp only at hi he hf hcl hs
    subst hf hcl
    simp only [plan, hm, expected]
    generalize hD : w.disk i = D at hs
    cases hs with
    | none r => exact op_nothing h0 (.inl rfl) rfl
    | «local» v r => exact op_nothing h0 (.inl rfl) rfl
    | both v => exact op_nothing h0 (.inl rfl) rfl
    | cloud v =>
      simp only [Bool.false_eq_true, if_false, Bool.not_true]
      have hu : downloadSteps w.disk ⟨i, false, true, .id, false⟩ = [.act (.unlink i .incomplete), .act (.create i .incomplete v),
          .act (.write i .incomplete v false), .act (.rename i .incomplete .id), .mem (some ⟨i, true, true, .id, false⟩)] := by
        simp [downloadSteps, hD, Blob.opens, full]
      rw [hu]
      refine ⟨rest_one hi he ?_ (m := ⟨i, true, true, .id, false⟩) rfl rfl rfl rfl ?_, one_dir hi he ?_ ?_⟩
      · simp [Only]
      · rw [hD]
        exact .both v
      · simp [Only]
      · intro n
        rw [hD]
        match n with
        | 0 => exact ⟨_, _, _, _, .inl (.settled _ _ _ _ _ (.cloud v))⟩
        | 1 => exact ⟨_, _, _, _, .inl (.settled _ _ _ _ _ (.cloud v))⟩
        | 2 => exact ⟨_, _, _, _, .inl (.cloudIncomplete v _ _)⟩
        | 3 => exact ⟨_, _, _, _, .inl (.cloudIncomplete v _ _)⟩
        | 4 => exact ⟨_, _, _, _, .inl (.settled _ _ _ _ _ (.both v))⟩
        | n + 5 => rw [List.take_of_length_le (by simp)]; exact ⟨_, _, _, _, .inl (.settled _ _ _ _ _ (.both v))⟩

theorem does_create {order : List Nat} {w : World} {v : Option Nat} (h : Rest order w v) (s : Nat) (hs : s ∈ order) : Does order w v (.create s) := by
  unfold Does
  cases hm : w.mem with
  | some m =>
    simp only [plan, hm, expected]
    exact op_nothing h (.inl rfl) rfl
  | none =>
    have h0 := h
    unfold Rest at h
    rw [hm] at h
    obtain ⟨rfl, he⟩ := h
    simp only [plan, hm, expected]
    obtain ⟨r, hr⟩ := he s
    refine ⟨rest_one hs (fun x _ => he x) ?_ (m := { storage := s }) rfl rfl rfl rfl ?_, one_dir hs (fun x _ => he x) ?_ ?_⟩
    · simp
    · rw [hr]; exact .none r
    · simp
    · intro n
      rw [hr]
      match n with
      | 0 => exact ⟨_, _, _, _, .inl (.settled _ _ _ _ _ (.none r))⟩
      | n + 1 => rw [List.take_of_length_le (by simp)]; exact ⟨_, _, _, _, .inl (.settled _ _ _ _ _ (.none r))⟩

theorem does_drop {order : List Nat} {w : World} {v : Option Nat} (h : Rest order w v) (cl lo : Bool) : Does order w v (.drop cl lo) := by
  unfold Does
  cases hm : w.mem with
  | none =>
    simp only [plan, hm, expected]
    exact op_nothing h (.inl rfl) rfl
  | some m =>
    have h0 := h
    unfold Rest at h
    rw [hm] at h
    obtain ⟨hi, he, hf, hcl, hs⟩ := h
    obtain ⟨i, mi, mc, fd, closed⟩ := m
    dsimp only at hi he hf hcl hs
    subst hf hcl
    simp only [plan, hm, expected, dropSteps]
    generalize hD : w.disk i = D at hs
    -- a drop of everything
    have gone : ∀ (l : List Step), (∀ a, Step.act a ∈ l → Only i a) → memAfter w.mem l = none → Empty (execDir (w.disk i) l) →
        Rest order (exec w l) none := by
      intro l hl hm hd
      unfold Rest
      rw [exec_mem, hm]
      refine ⟨rfl, ?_⟩
      intro s
      by_cases e : s = i
      · rw [e, exec_self _ _ hl]; exact hd
      · rw [exec_other _ _ hl s e]; exact he s e
    cases hs with
    | none r =>
      cases cl <;> cases lo <;> simp only [Bool.false_and, Bool.and_false, Bool.true_and, Bool.and_true, Bool.false_eq_true, if_false, if_true,
        List.append_nil, List.nil_append, Bool.or_false, Bool.or_true, Bool.false_or, Bool.true_or, Bool.not_true, Bool.not_false]
      · exact op_nothing h0 (.inl rfl) rfl
      · exact op_nothing h0 (.inl rfl) rfl
      · exact op_nothing h0 (.inl rfl) rfl
      · refine ⟨gone _ (by simp) rfl (by rw [hD]; exact ⟨r, rfl⟩), one_dir hi he (by simp) ?_⟩
        intro n
        rw [hD]
        match n with
        | 0 => exact ⟨_, _, _, _, .inl (.settled _ _ _ _ _ (.none r))⟩
        | n + 1 => rw [List.take_of_length_le (by simp)]; exact ⟨_, _, _, _, .inl (.settled _ _ _ _ _ (.none r))⟩
    | «local» v r =>
      cases cl <;> cases lo <;> simp only [Bool.false_and, Bool.and_false, Bool.true_and, Bool.and_true, Bool.false_eq_true, if_false, if_true,
        List.append_nil, List.nil_append, Bool.or_false, Bool.or_true, Bool.false_or, Bool.true_or, Bool.not_true, Bool.not_false]
      · exact op_nothing h0 (.inl rfl) rfl
      · refine ⟨rest_one hi he (by simp [Only]) (m := ⟨i, false, false, .id, false⟩) rfl rfl rfl rfl (by rw [hD]; exact .none r),
          one_dir hi he (by simp [Only]) ?_⟩
        intro n
        rw [hD]
        match n with
        | 0 => exact ⟨_, _, _, _, .inl (.settled _ _ _ _ _ (.local v r))⟩
        | 1 => exact ⟨_, _, _, _, .inl (.settled _ _ _ _ _ (.local v r))⟩
        | 2 => exact ⟨_, _, _, _, .inr (.settled _ _ _ _ _ (.none r))⟩
        | n + 3 => rw [List.take_of_length_le (by simp)]; exact ⟨_, _, _, _, .inr (.settled _ _ _ _ _ (.none r))⟩
      · exact op_nothing h0 (.inl rfl) rfl
      · refine ⟨gone _ (by simp [Only]) rfl (by rw [hD]; exact ⟨r, rfl⟩), one_dir hi he (by simp [Only]) ?_⟩
        intro n
        rw [hD]
        match n with
        | 0 => exact ⟨_, _, _, _, .inl (.settled _ _ _ _ _ (.local v r))⟩
        | 1 => exact ⟨_, _, _, _, .inl (.settled _ _ _ _ _ (.local v r))⟩
        | 2 => exact ⟨_, _, _, _, .inr (.settled _ _ _ _ _ (.none r))⟩
        | 3 => exact ⟨_, _, _, _, .inr (.settled _ _ _ _ _ (.none r))⟩
        | n + 4 => rw [List.take_of_length_le (by simp)]; exact ⟨_, _, _, _, .inr (.settled _ _ _ _ _ (.none r))⟩
    | cloud v =>
      cases cl <;> cases lo <;> simp only [Bool.false_and, Bool.and_false, Bool.true_and, Bool.and_true, Bool.false_eq_true, if_false, if_true,
        List.append_nil, List.nil_append, Bool.or_false, Bool.or_true, Bool.false_or, Bool.true_or, Bool.not_true, Bool.not_false]
      · exact op_nothing h0 (.inl rfl) rfl
      · exact op_nothing h0 (.inl rfl) rfl
      · refine ⟨rest_one hi he (by simp [Only]) (m := ⟨i, false, false, .id, false⟩) rfl rfl rfl rfl (by rw [hD]; exact .none none),
          one_dir hi he (by simp [Only]) ?_⟩
        intro n
        rw [hD]
        match n with
        | 0 => exact ⟨_, _, _, _, .inl (.settled _ _ _ _ _ (.cloud v))⟩
        | 1 => exact ⟨_, _, _, _, .inr (.settled _ _ _ _ _ (.none _))⟩
        | 2 => exact ⟨_, _, _, _, .inr (.settled _ _ _ _ _ (.none _))⟩
        | n + 3 => rw [List.take_of_length_le (by simp)]; exact ⟨_, _, _, _, .inr (.settled _ _ _ _ _ (.none _))⟩
      · refine ⟨gone _ (by simp [Only]) rfl (by rw [hD]; exact ⟨none, rfl⟩), one_dir hi he (by simp [Only]) ?_⟩
        intro n
        rw [hD]
        match n with
        | 0 => exact ⟨_, _, _, _, .inl (.settled _ _ _ _ _ (.cloud v))⟩
        | 1 => exact ⟨_, _, _, _, .inr (.settled _ _ _ _ _ (.none _))⟩
        | 2 => exact ⟨_, _, _, _, .inr (.settled _ _ _ _ _ (.none _))⟩
        | 3 => exact ⟨_, _, _, _, .inr (.settled _ _ _ _ _ (.none _))⟩
        | n + 4 => rw [List.take_of_length_le (by simp)]; exact ⟨_, _, _, _, .inr (.settled _ _ _ _ _ (.none _))⟩
    | both v =>
      cases cl <;> cases lo <;> simp only [Bool.false_and, Bool.and_false, Bool.true_and, Bool.and_true, Bool.false_eq_true, if_false, if_true,
        List.append_nil, List.nil_append, Bool.or_false, Bool.or_true, Bool.false_or, Bool.true_or, Bool.not_true, Bool.not_false]
      · exact op_nothing h0 (.inl rfl) rfl
      · refine ⟨rest_one hi he (by simp [Only]) (m := ⟨i, false, true, .id, false⟩) rfl rfl rfl rfl (by rw [hD]; exact .cloud v),
          one_dir hi he (by simp [Only]) ?_⟩
        intro n
        rw [hD]
        match n with
        | 0 => exact ⟨_, _, _, _, .inl (.settled _ _ _ _ _ (.both v))⟩
        | 1 => exact ⟨_, _, _, _, .inl (.settled _ _ _ _ _ (.both v))⟩
        | 2 => exact ⟨_, _, _, _, .inl (.settled _ _ _ _ _ (.cloud v))⟩
        | n + 3 => rw [List.take_of_length_le (by simp)]; exact ⟨_, _, _, _, .inl (.settled _ _ _ _ _ (.cloud v))⟩
      · refine ⟨rest_one hi he (by simp [Only]) (m := ⟨i, true, false, .id, false⟩) rfl rfl rfl rfl (by rw [hD]; exact .local v none),
          one_dir hi he (by simp [Only]) ?_⟩
        intro n
        rw [hD]
        match n with
        | 0 => exact ⟨_, _, _, _, .inl (.settled _ _ _ _ _ (.both v))⟩
        | 1 => exact ⟨_, _, _, _, .inl (.settled _ _ _ _ _ (.local v _))⟩
        | 2 => exact ⟨_, _, _, _, .inl (.settled _ _ _ _ _ (.local v _))⟩
        | n + 3 => rw [List.take_of_length_le (by simp)]; exact ⟨_, _, _, _, .inl (.settled _ _ _ _ _ (.local v _))⟩
      · refine ⟨gone _ (by simp [Only]) rfl (by rw [hD]; exact ⟨none, rfl⟩), one_dir hi he (by simp [Only]) ?_⟩
        intro n
        rw [hD]
        match n with
        | 0 => exact ⟨_, _, _, _, .inl (.settled _ _ _ _ _ (.both v))⟩
        | 1 => exact ⟨_, _, _, _, .inl (.settled _ _ _ _ _ (.local v _))⟩
        | 2 => exact ⟨_, _, _, _, .inl (.settled _ _ _ _ _ (.local v _))⟩
        | 3 => exact ⟨_, _, _, _, .inl (.settled _ _ _ _ _ (.local v _))⟩
        | 4 => exact ⟨_, _, _, _, .inl (.settled _ _ _ _ _ (.local v _))⟩
        | 5 => exact ⟨_, _, _, _, .inr (.settled _ _ _ _ _ (.none _))⟩
        | 6 => exact ⟨_, _, _, _, .inr (.settled _ _ _ _ _ (.none _))⟩
        | n + 7 => rw [List.take_of_length_le (by simp)]; exact ⟨_, _, _, _, .inr (.settled _ _ _ _ _ (.none _))⟩

/-- A refresh on the same storage. -/
theorem does_same {order : List Nat} {w : World} {v : Option Nat} {i : Nat} {mi : Bool} (hi : i ∈ order) (he : ∀ s, s ≠ i → Empty (w.disk s))
    (hs : Settled (w.disk i) mi false v) (n : Nat) (tail : Bool) :
    Rest order (exec w (refreshSteps w.disk ⟨i, mi, false, .id, false⟩ i n tail)) (some n) ∧
      ∀ k, Torn order (exec w ((refreshSteps w.disk ⟨i, mi, false, .id, false⟩ i n tail).take k)).disk v ∨
        Torn order (exec w ((refreshSteps w.disk ⟨i, mi, false, .id, false⟩ i n tail).take k)).disk (some n) := by
  generalize hD : w.disk i = D at hs
  have hu : refreshSteps w.disk ⟨i, mi, false, .id, false⟩ i n tail =
      [.act (.create i .incomplete n), .act (.write i .incomplete n false),
       .mem (some { storage := i, id := true, fd := .incomplete }),
       .act (.rename i .incomplete .complete), .act (.unlink i .id), .act (.rename i .complete .id)] := by
    unfold refreshSteps
    rw [hD]
    cases hs <;> rfl
  rw [hu]
  cases hs with
  | none r =>
    refine ⟨rest_one hi he (by simp [Only]) (m := ⟨i, true, false, .id, false⟩) (by simp [memAfter, follow]) rfl rfl rfl (by rw [hD]; exact .local n r),
      one_dir hi he (by simp [Only]) ?_⟩
    intro k
    rw [hD]
    match k with
    | 0 => exact ⟨_, _, _, _, .inl (.settled _ _ _ _ _ (.none r))⟩
    | 1 => exact ⟨_, _, _, _, .inl (.incomplete _ _ _)⟩
    | 2 => exact ⟨_, _, _, _, .inl (.incomplete _ _ _)⟩
    | 3 => exact ⟨_, _, _, _, .inl (.incomplete _ _ _)⟩
    | 4 => exact ⟨_, _, _, _, .inr (.complete n _ _)⟩
    | 5 => exact ⟨_, _, _, _, .inr (.complete n _ _)⟩
    | k + 6 => rw [List.take_of_length_le (by simp)]; exact ⟨_, _, _, _, .inr (.settled _ _ _ _ _ (.local n r))⟩
  | «local» v r =>
    refine ⟨rest_one hi he (by simp [Only]) (m := ⟨i, true, false, .id, false⟩) (by simp [memAfter, follow]) rfl rfl rfl (by rw [hD]; exact .local n r),
      one_dir hi he (by simp [Only]) ?_⟩
    intro k
    rw [hD]
    match k with
    | 0 => exact ⟨_, _, _, _, .inl (.settled _ _ _ _ _ (.local v r))⟩
    | 1 => exact ⟨_, _, _, _, .inl (.idIncomplete v _ _ _)⟩
    | 2 => exact ⟨_, _, _, _, .inl (.idIncomplete v _ _ _)⟩
    | 3 => exact ⟨_, _, _, _, .inl (.idIncomplete v _ _ _)⟩
    | 4 => exact ⟨_, _, _, _, .inl (.idComplete v _ _ _)⟩
    | 5 => exact ⟨_, _, _, _, .inr (.complete n _ _)⟩
    | k + 6 => rw [List.take_of_length_le (by simp)]; exact ⟨_, _, _, _, .inr (.settled _ _ _ _ _ (.local n r))⟩

def storageOf : Act → Nat
  | .create s _ _ => s
  | .write s _ _ _ => s
  | .rename s _ _ => s
  | .unlink s _ => s
  | .put s _ => s
  | .del s => s

/-- What steps do in the directory of one storage. -/
def execAt (s : Nat) (x : Dir) : List Step → Dir
  | [] => x
  | .act a :: l => execAt s (if storageOf a = s then performDir x a else x) l
  | .mem _ :: l => execAt s x l
  | .fail :: _ => x

theorem exec_at (s : Nat) : ∀ (l : List Step) (w : World), (exec w l).disk s = execAt s (w.disk s) l
  | [], _ => rfl
  | .act a :: l, w => by
    rw [exec, exec_at s l, execAt]
    dsimp only
    congr 1
    split
    · rename_i h
      exact perform_self (by cases a <;> exact h) _
    · rename_i h
      exact perform_other (i := storageOf a) (by cases a <;> rfl) _ (Ne.symm h)
  | .mem m :: l, w => by rw [exec, exec_at s l, execAt]
  | .fail :: l, w => rfl

/-- A move. -/
theorem does_move {order : List Nat} {w : World} {v : Option Nat} {i j : Nat} {mi : Bool} (hi : i ∈ order) (hj : j ∈ order) (hij : j ≠ i)
    (he : ∀ s, s ≠ i → Empty (w.disk s)) (hs : Settled (w.disk i) mi false v) (n : Nat) (tail : Bool) :
    Rest order (exec w (refreshSteps w.disk ⟨i, mi, false, .id, false⟩ j n tail)) (some n) ∧
      ∀ k, Torn order (exec w ((refreshSteps w.disk ⟨i, mi, false, .id, false⟩ j n tail).take k)).disk v ∨
        Torn order (exec w ((refreshSteps w.disk ⟨i, mi, false, .id, false⟩ j n tail).take k)).disk (some n) := by
  obtain ⟨r', hr'⟩ := he j hij
  have hu : refreshSteps w.disk ⟨i, mi, false, .id, false⟩ j n tail =
      [.act (.create j .incomplete n), .act (.write j .incomplete n false),
       .mem (some { storage := j, id := true, fd := .incomplete }),
       .act (.rename j .incomplete .complete), .act (.unlink i .id), .act (.rename j .complete .id)] := by
    unfold refreshSteps
    rw [hr']
    rfl
  rw [hu]
  have hij' := Ne.symm hij
  -- the other directories
  have hother : ∀ k s, s ≠ i → s ≠ j → Empty ((exec w (([.act (.create j .incomplete n), .act (.write j .incomplete n false),
       .mem (some { storage := j, id := true, fd := .incomplete }),
       .act (.rename j .incomplete .complete), .act (.unlink i .id), .act (.rename j .complete .id)] : List Step).take k)).disk s) := by
    intro k s h1 h2
    rw [exec_at]
    have e : ∀ (l : List Step), (∀ a, Step.act a ∈ l → storageOf a ≠ s) → ∀ x, execAt s x l = x := by
      intro l
      induction l with
      | nil => intros; rfl
      | cons a l ih =>
        intro h x
        cases a with
        | act a => rw [execAt, if_neg (h a (List.mem_cons_self ..))]; exact ih (fun b hb => h b (List.mem_cons_of_mem _ hb)) x
        | mem m => rw [execAt]; exact ih (fun b hb => h b (List.mem_cons_of_mem _ hb)) x
        | fail => rfl
    rw [e]
    · exact he s h1
    · intro a ha
      have ha := List.mem_of_mem_take ha
      simp at ha
      rcases ha with rfl | rfl | rfl | rfl | rfl <;> first | exact Ne.symm h1 | exact Ne.symm h2
  generalize hD : w.disk i = D at hs
  have only : ∀ (d : Disk), (∀ s, s ≠ i → s ≠ j → Empty (d s)) → Empty (d i) → ∀ s, s ≠ j → Empty (d s) := by
    intro d h hd s h1
    by_cases e : s = i
    · rw [e]; exact hd
    · exact h s e h1
  cases hs with
  | none r =>
    have hE : Rest order (exec w [.act (.create j .incomplete n), .act (.write j .incomplete n false),
       .mem (some { storage := j, id := true, fd := .incomplete }),
       .act (.rename j .incomplete .complete), .act (.unlink i .id), .act (.rename j .complete .id)]) (some n) := by
      unfold Rest
      rw [exec_mem]
      simp only [memAfter, follow, if_true, and_self]
      refine ⟨hj, only _ (hother 6) ⟨r, ?_⟩, trivial, trivial, ?_⟩
      · rw [exec_at, hD]; simp [execAt, storageOf, performDir, Dir.get, Dir.set, hij, hij']
      · rw [exec_at, hr']
        simp [execAt, storageOf, performDir, Dir.get, Dir.set, hij, hij']
        exact .local n r'
    refine ⟨hE, ?_⟩
    intro k
    have ho := hother k
    match k with
    | 0 => exact .inl (torn1 hi he hD (.settled _ _ _ _ _ (.none r)))
    | 1 =>
      refine .inl (torn1 hj (only _ ho ⟨r, ?_⟩) ?_ (.incomplete ⟨n, false, false⟩ r' j))
      · rw [exec_at, hD]; simp [execAt, storageOf, performDir, Dir.get, Dir.set, hij, hij']
      · rw [exec_at, hr']; simp [execAt, storageOf, performDir, Dir.get, Dir.set, hij, hij']
    | 2 =>
      refine .inl (torn1 hj (only _ ho ⟨r, ?_⟩) ?_ (.incomplete ⟨n, true, false⟩ r' j))
      · rw [exec_at, hD]; simp [execAt, storageOf, performDir, Dir.get, Dir.set, hij, hij']
      · rw [exec_at, hr']; simp [execAt, storageOf, performDir, Dir.get, Dir.set, hij, hij']
    | 3 =>
      refine .inl (torn1 hj (only _ ho ⟨r, ?_⟩) ?_ (.incomplete ⟨n, true, false⟩ r' j))
      · rw [exec_at, hD]; simp [execAt, storageOf, performDir, Dir.get, Dir.set, hij, hij']
      · rw [exec_at, hr']; simp [execAt, storageOf, performDir, Dir.get, Dir.set, hij, hij']
    | 4 =>
      refine .inr (torn1 hj (only _ ho ⟨r, ?_⟩) ?_ (.complete n r' j))
      · rw [exec_at, hD]; simp [execAt, storageOf, performDir, Dir.get, Dir.set, hij, hij']
      · rw [exec_at, hr']; simp [execAt, storageOf, performDir, Dir.get, Dir.set, hij, hij', full]
    | 5 =>
      refine .inr (torn1 hj (only _ ho ⟨r, ?_⟩) ?_ (.complete n r' j))
      · rw [exec_at, hD]; simp [execAt, storageOf, performDir, Dir.get, Dir.set, hij, hij']
      · rw [exec_at, hr']; simp [execAt, storageOf, performDir, Dir.get, Dir.set, hij, hij', full]
    | k + 6 => rw [List.take_of_length_le (by simp)]; exact .inr (torn_rest hE)
  | «local» v r =>
    have hE : Rest order (exec w [.act (.create j .incomplete n), .act (.write j .incomplete n false),
       .mem (some { storage := j, id := true, fd := .incomplete }),
       .act (.rename j .incomplete .complete), .act (.unlink i .id), .act (.rename j .complete .id)]) (some n) := by
      unfold Rest
      rw [exec_mem]
      simp only [memAfter, follow, if_true, and_self]
      refine ⟨hj, only _ (hother 6) ⟨r, ?_⟩, trivial, trivial, ?_⟩
      · rw [exec_at, hD]; simp [execAt, storageOf, performDir, Dir.get, Dir.set, hij, hij']
      · rw [exec_at, hr']
        simp [execAt, storageOf, performDir, Dir.get, Dir.set, hij, hij']
        exact .local n r'
    refine ⟨hE, ?_⟩
    intro k
    have ho := hother k
    match k with
    | 0 => exact .inl (torn1 hi he hD (.settled _ _ _ _ _ (.local v r)))
    | 1 =>
      refine .inl (.two i j v r hi hj hij' ho ?_ ⟨⟨n, false, false⟩, r', .inl ?_⟩)
      · rw [exec_at, hD]; simp [execAt, storageOf, performDir, Dir.get, Dir.set, hij, hij']
      · rw [exec_at, hr']; simp [execAt, storageOf, performDir, Dir.get, Dir.set, hij, hij']
    | 2 =>
      refine .inl (.two i j v r hi hj hij' ho ?_ ⟨⟨n, true, false⟩, r', .inl ?_⟩)
      · rw [exec_at, hD]; simp [execAt, storageOf, performDir, Dir.get, Dir.set, hij, hij']
      · rw [exec_at, hr']; simp [execAt, storageOf, performDir, Dir.get, Dir.set, hij, hij']
    | 3 =>
      refine .inl (.two i j v r hi hj hij' ho ?_ ⟨⟨n, true, false⟩, r', .inl ?_⟩)
      · rw [exec_at, hD]; simp [execAt, storageOf, performDir, Dir.get, Dir.set, hij, hij']
      · rw [exec_at, hr']; simp [execAt, storageOf, performDir, Dir.get, Dir.set, hij, hij']
    | 4 =>
      refine .inl (.two i j v r hi hj hij' ho ?_ ⟨⟨n, true, false⟩, r', .inr ?_⟩)
      · rw [exec_at, hD]; simp [execAt, storageOf, performDir, Dir.get, Dir.set, hij, hij']
      · rw [exec_at, hr']; simp [execAt, storageOf, performDir, Dir.get, Dir.set, hij, hij']
    | 5 =>
      refine .inr (torn1 hj (only _ ho ⟨r, ?_⟩) ?_ (.complete n r' j))
      · rw [exec_at, hD]; simp [execAt, storageOf, performDir, Dir.get, Dir.set, hij, hij']
      · rw [exec_at, hr']; simp [execAt, storageOf, performDir, Dir.get, Dir.set, hij, hij', full]
    | k + 6 => rw [List.take_of_length_le (by simp)]; exact .inr (torn_rest hE)

theorem does_refresh {order : List Nat} {w : World} {v : Option Nat} (h : Rest order w v) (target : Option Nat) (n : Nat) (tail : Bool)
    (ht : Exists order (.refresh target n tail)) : Does order w v (.refresh target n tail) := by
  unfold Does
  cases hm : w.mem with
  | none =>
    simp only [plan, hm, expected]
    exact op_nothing h (.inl rfl) rfl
  | some m =>
    have h0 := h
    unfold Rest at h
    rw [hm] at h
    obtain ⟨hi, he, hf, hcl, hs⟩ := h
    obtain ⟨i, mi, mc, fd, closed⟩ := m
    dsimp only at hi he hf hcl hs
    subst hf hcl
    simp only [plan, hm, expected]
    cases mc with
    | true => exact op_nothing h0 (.inr rfl) rfl
    | false =>
      simp only [Bool.false_eq_true, if_false]
      cases target with
      | none => exact does_same hi he hs n tail
      | some j =>
        dsimp only
        by_cases e : j = i
        · subst e
          simp only [if_true]
          exact op_nothing h0 (.inl rfl) rfl
        · rw [if_neg e, if_neg (by simpa using e)]
          exact does_move hi ht e he hs n tail

theorem does {order : List Nat} {w : World} {v : Option Nat} (h : Rest order w v) (o : Op) (ho : Exists order o) : Does order w v o := by
  cases o with
  | create s => exact does_create h s ho
  | refresh t n tail => exact does_refresh h t n tail ho
  | upload => exact does_upload h
  | download => exact does_download h
  | drop c l => exact does_drop h c l

theorem rest_stored {order : List Nat} {w : World} {v : Option Nat} (h : Rest order w v) : Stored w v := by
  unfold Rest at h
  unfold Stored content
  cases hm : w.mem with
  | none => rw [hm] at h; rw [h.1]; rfl
  | some m =>
    rw [hm] at h
    obtain ⟨_, _, hf, hc, hs⟩ := h
    dsimp only at hf hc hs ⊢
    rw [hf, hc]
    generalize w.disk m.storage = D at hs
    generalize m.id = a at hs
    generalize m.cloud = b at hs
    cases hs <;> rfl

theorem stored_unique {w : World} {v v' : Option Nat} (h : Stored w v) (h' : Stored w v') : v = v' := by
  unfold Stored at h h'
  rw [h] at h'
  cases v <;> cases v' <;> simp [full] at h' ⊢
  exact h'

/-- An event without an error. -/
theorem step_rest {order : List Nat} (hn : order.Nodup) {w : World} {v : Option Nat} (h : Rest order w v) (e : Event) (hk : Known order e)
    (he : NoError e) : ∃ w' v', step order w e = some w' ∧ Rest order w' v' ∧ Sound w v w' e := by
  cases e with
  | done o =>
    have := (does h o hk).1
    exact ⟨_, _, rfl, this, rest_stored this⟩
  | crash o n recs =>
    rcases (does h o hk).2 n with ht | ht
    · obtain ⟨w', hw, hr⟩ := torn_restart hn recs ht
      exact ⟨w', _, hw, hr, .inl (rest_stored hr)⟩
    · obtain ⟨w', hw, hr⟩ := torn_restart hn recs ht
      exact ⟨w', _, hw, hr, .inr (rest_stored hr)⟩
  | restart recs =>
    obtain ⟨w', hw, hr⟩ := torn_restart hn recs (torn_rest h)
    exact ⟨w', _, hw, hr, rest_stored hr⟩
  | error o n => exact he.elim

theorem run_rest {order : List Nat} (hn : order.Nodup) : ∀ (h : List Event) {w : World} {v : Option Nat}, Rest order w v →
    (∀ e ∈ h, Known order e) → (∀ e ∈ h, NoError e) → ∃ w' v', run order w h = some w' ∧ Rest order w' v'
  | [], w, v, hr, _, _ => ⟨w, v, rfl, hr⟩
  | e :: l, w, v, hr, hk, he => by
    obtain ⟨w', v', hs, hr', _⟩ := step_rest hn hr e (hk e (List.mem_cons_self ..)) (he e (List.mem_cons_self ..))
    obtain ⟨w2, v2, h2, hr2⟩ := run_rest hn l hr' (fun x hx => hk x (List.mem_cons_of_mem _ hx)) (fun x hx => he x (List.mem_cons_of_mem _ hx))
    refine ⟨w2, v2, ?_, hr2⟩
    rw [run, hs]
    exact h2

theorem start_rest (order : List Nat) : Rest order start none := ⟨rfl, fun _ => ⟨none, rfl⟩⟩

end Verif.C27
