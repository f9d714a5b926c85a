import Verif.Spec.C27

namespace Verif.C27
open Files

/-- No files of the partition. -/
def Empty (d : Dir) : Prop := ∃ r, d = ⟨none, none, none, none, none, r⟩

/-- The directory of a partition between operations, with the bits of its state. -/
inductive Settled : Dir → Bool → Bool → Option Nat → Prop
  | none (r) : Settled ⟨none, none, none, none, none, r⟩ false false none
  | local (v r) : Settled ⟨some (full v), none, none, none, none, r⟩ true false (some v)
  | cloud (v) : Settled ⟨none, none, none, some (full v), none, some (full v)⟩ false true (some v)
  | both (v) : Settled ⟨some (full v), none, none, some (full v), none, some (full v)⟩ true true (some v)

/-- The state between operations. -/
def Rest (order : List Nat) (w : World) (v : Option Nat) : Prop :=
  match w.mem with
  | none => v = none ∧ ∀ s, Empty (w.disk s)
  | some m => m.storage ∈ order ∧ (∀ s, s ≠ m.storage → Empty (w.disk s)) ∧ m.fd = .id ∧ m.closed = false ∧
    Settled (w.disk m.storage) m.id m.cloud v

/-- The directory after a crash, what is to be done about it, and the directory,
the bits of the state and the version that come out. -/
inductive Broken : Dir → List Act → Nat → Dir → Bool → Bool → Option Nat → Prop
  | settled (d i c v s) : Settled d i c v → Broken d [] s d i c v
  | incomplete (b r s) : Broken ⟨none, some b, none, none, none, r⟩ [.unlink s .incomplete] s ⟨none, none, none, none, none, r⟩ false false none
  | idIncomplete (v b r s) :
    Broken ⟨some (full v), some b, none, none, none, r⟩ [.unlink s .incomplete] s ⟨some (full v), none, none, none, none, r⟩ true false (some v)
  | idComplete (v b r s) :
    Broken ⟨some (full v), none, some b, none, none, r⟩ [.unlink s .complete] s ⟨some (full v), none, none, none, none, r⟩ true false (some v)
  | complete (v r s) :
    Broken ⟨none, none, some (full v), none, none, r⟩ [.rename s .complete .id] s ⟨some (full v), none, none, none, none, r⟩ true false (some v)
  | cloudIncomplete (v b s) :
    Broken ⟨none, some b, none, some (full v), none, some (full v)⟩ [.unlink s .incomplete] s
      ⟨none, none, none, some (full v), none, some (full v)⟩ false true (some v)
  | idCloudIncomplete (v b r s) :
    Broken ⟨some (full v), none, none, none, some b, r⟩ [.unlink s .cloudIncomplete] s ⟨some (full v), none, none, none, none, r⟩ true false (some v)

/-- The files after a crash, and the version they stand for. -/
inductive Torn (order : List Nat) (d : Disk) : Option Nat → Prop
  | none : (∀ s, Empty (d s)) → Torn order d none
  | one (i : Nat) (a D' b c v) : i ∈ order → (∀ s, s ≠ i → Empty (d s)) → Broken (d i) a i D' b c v → Torn order d v
  | two (i j : Nat) (v r) : i ∈ order → j ∈ order → i ≠ j → (∀ s, s ≠ i → s ≠ j → Empty (d s)) →
    d i = ⟨some (full v), none, none, none, none, r⟩ →
    (∃ b r, d j = ⟨none, some b, none, none, none, r⟩ ∨ d j = ⟨none, none, some b, none, none, r⟩) → Torn order d (some v)

theorem readDir_empty {d : Dir} (h : Empty d) : readDir d = none := by
  obtain ⟨r, rfl⟩ := h
  rfl

theorem validateAll_same (order : List Nat) (parts : Nat → Option Flags) : ∀ l : List Nat,
    (∀ s ∈ l, validate order parts s = ([], parts)) → validateAll order parts l = ([], parts)
  | [], _ => rfl
  | s :: l, h => by
    rw [validateAll, h s (List.mem_cons_self ..)]
    dsimp only
    rw [validateAll_same order parts l (fun x hx => h x (List.mem_cons_of_mem _ hx))]
    rfl

theorem validateAll_one (order : List Nat) (parts : Nat → Option Flags) (i : Nat) (a : List Step) (parts' : Nat → Option Flags)
    (hv : validate order parts i = (a, parts')) : ∀ l : List Nat, l.Nodup → i ∈ l →
    (∀ s ∈ l, s ≠ i → validate order parts s = ([], parts) ∧ validate order parts' s = ([], parts')) →
    validateAll order parts l = (a, parts')
  | [], _, hi, _ => by cases hi
  | s :: l, hn, hi, h => by
    rw [List.nodup_cons] at hn
    rw [validateAll]
    by_cases e : s = i
    · subst e
      rw [hv]
      dsimp only
      rw [validateAll_same order parts' l]
      · simp
      · intro x hx
        exact (h x (List.mem_cons_of_mem _ hx) (fun k => hn.1 (k ▸ hx))).2
    · rw [(h s (List.mem_cons_self ..) e).1]
      dsimp only
      have hi' : i ∈ l := by
        rcases List.mem_cons.1 hi with k | k
        · exact absurd k.symm e
        · exact k
      rw [validateAll_one order parts i a parts' hv l hn.2 hi' (fun x hx => h x (List.mem_cons_of_mem _ hx))]
      rfl

theorem validate_none {order : List Nat} {parts : Nat → Option Flags} {s : Nat} (h : parts s = none) :
    validate order parts s = ([], parts) := by
  unfold validate
  rw [h]

theorem openAll_none (d : Disk) (parts : Nat → Option Flags) : ∀ l : List Nat, (∀ s ∈ l, parts s = none) → openAll d parts l = []
  | [], _ => rfl
  | s :: l, h => by
    rw [openAll, h s (List.mem_cons_self ..)]
    exact openAll_none d parts l (fun x hx => h x (List.mem_cons_of_mem _ hx))

theorem openAll_one (d : Disk) (parts : Nat → Option Flags) (i : Nat) (f : Flags) (hf : parts i = some f) : ∀ l : List Nat,
    l.Nodup → i ∈ l → (∀ s ∈ l, s ≠ i → parts s = none) → openAll d parts l = [openPart d i f]
  | [], _, hi, _ => by cases hi
  | s :: l, hn, hi, h => by
    rw [List.nodup_cons] at hn
    rw [openAll]
    by_cases e : s = i
    · subst e
      rw [hf]
      dsimp only
      rw [if_neg]
      intro k
      obtain ⟨x, hx, e⟩ := List.any_eq_true.1 k
      rw [h x (List.mem_cons_of_mem _ hx) (fun k => hn.1 (k ▸ hx))] at e
      cases e
    · rw [h s (List.mem_cons_self ..) e]
      dsimp only
      have hi' : i ∈ l := by
        rcases List.mem_cons.1 hi with k | k
        · exact absurd k.symm e
        · exact k
      exact openAll_one d parts i f hf l hn.2 hi' (fun x hx => h x (List.mem_cons_of_mem _ hx))

theorem findPart_none {order : List Nat} {parts : Nat → Option Flags} {i : Nat} (h : ∀ s ∈ order, s ≠ i → parts s = none) :
    findPart order parts i = none := by
  unfold findPart
  rw [List.findSome?_eq_none_iff]
  intro s hs
  by_cases e : s = i
  · rw [if_pos e]
  · rw [if_neg e]; exact h s hs e

theorem findPart_one {order : List Nat} {parts : Nat → Option Flags} {i j : Nat} (hij : j ≠ i) (hj : j ∈ order)
    (h : ∀ s ∈ order, s ≠ i → s ≠ j → parts s = none) (g : Flags) (hg : parts j = some g) :
    findPart order parts i = some g := by
  unfold findPart
  induction order with
  | nil => cases hj
  | cons s l ih =>
    rw [List.findSome?_cons]
    by_cases e : s = i
    · rw [if_pos e]
      have : j ∈ l := by
        rcases List.mem_cons.1 hj with k | k
        · exact absurd (k.trans e) hij
        · exact k
      exact ih this (fun x hx => h x (List.mem_cons_of_mem _ hx))
    · rw [if_neg e]
      by_cases e2 : s = j
      · rw [e2, hg]
      · rw [h s (List.mem_cons_self ..) e e2]
        have : j ∈ l := by
          rcases List.mem_cons.1 hj with k | k
          · exact absurd k.symm e2
          · exact k
        exact ih this (fun x hx => h x (List.mem_cons_of_mem _ hx))

theorem setPart_self (parts : Nat → Option Flags) (i : Nat) : setPart parts i (parts i) = parts := by
  funext x
  unfold setPart
  split
  · rename_i e; rw [e]
  · rfl

/-- The bits of a settled directory. -/
def flagsOf (i c : Bool) : Option Flags := if i || c then some ⟨i, false, false, c, false⟩ else none

/-- What validation does to a broken directory. -/
theorem validate_broken {order : List Nat} {d : Disk} {i : Nat} {a : List Act} {D' : Dir} {b c : Bool} {v : Option Nat}
    (h : Broken (d i) a i D' b c v) (he : ∀ s, s ≠ i → Empty (d s)) :
    validate order (fun s => readDir (d s)) i =
      (a.map Step.act, setPart (fun s => readDir (d s)) i (flagsOf b c)) := by
  have hother : ∀ s ∈ order, s ≠ i → (fun s => readDir (d s)) s = none := fun s _ e => readDir_empty (he s e)
  generalize hD : d i = D at h
  unfold validate
  dsimp only
  rw [hD]
  cases h with
  | settled _ _ _ _ _ hs =>
    cases hs with
    | none r =>
      simp only [readDir]
      have := setPart_self (fun s => readDir (d s)) i
      simp only [hD, readDir] at this
      simp only [flagsOf]
      exact Prod.ext rfl this.symm
    | «local» v r =>
      have := setPart_self (fun s => readDir (d s)) i
      simp only [hD, readDir] at this
      simp only [flagsOf, readDir]
      exact Prod.ext rfl this.symm
    | cloud v =>
      have := setPart_self (fun s => readDir (d s)) i
      simp only [hD, readDir] at this
      simp only [flagsOf, readDir]
      exact Prod.ext rfl this.symm
    | both v =>
      have := setPart_self (fun s => readDir (d s)) i
      simp only [hD, readDir] at this
      simp only [flagsOf, readDir]
      exact Prod.ext rfl this.symm
  | incomplete => rfl
  | idIncomplete => rfl
  | idComplete => rfl
  | complete =>
    simp only [readDir, Option.isSome_none, Option.isSome_some, Bool.or_false, Bool.false_or, Bool.or_true, if_true]
    have hn := findPart_none hother
    simp only [readDir] at hn
    rw [hn]
    rfl
  | cloudIncomplete => rfl
  | idCloudIncomplete => rfl

theorem follow_none (a : Act) : follow none a = none := by cases a <;> rfl

theorem exec_acts (d : Disk) (a : List Act) (l : List Step) :
    exec { disk := d, mem := none } (a.map Step.act ++ l) = exec { disk := a.foldl perform d, mem := none } l := by
  induction a generalizing d with
  | nil => rfl
  | cons x a ih =>
    rw [List.map_cons, List.cons_append, exec, follow_none]
    exact ih _

theorem foldl_broken {d : Disk} {i : Nat} {a : List Act} {D' : Dir} {b c : Bool} {v : Option Nat} (h : Broken (d i) a i D' b c v) :
    a.foldl perform d = d.on i (fun _ => D') := by
  generalize hD : d i = D at h
  cases h with
  | settled _ _ _ _ _ hs =>
    funext x
    simp only [List.foldl_nil, Disk.on]
    split
    · rename_i e; rw [e, hD]
    · rfl
  | _ =>
    funext x
    simp only [List.foldl_cons, List.foldl_nil, perform, Disk.on]
    split
    · rename_i e
      rw [e, hD]
      rfl
    · rfl

theorem broken_settled {D : Dir} {a : List Act} {i : Nat} {D' : Dir} {b c : Bool} {v : Option Nat} (h : Broken D a i D' b c v) :
    Settled D' b c v ∧ a.length ≤ 1 := by
  cases h with
  | settled _ _ _ _ _ hs => exact ⟨hs, by simp⟩
  | _ => exact ⟨by constructor, by simp⟩

theorem on_eq (d : Disk) (i : Nat) (f : Dir → Dir) : d.on i f i = f (d i) := by simp [Disk.on]
theorem on_ne (d : Disk) {i s : Nat} (f : Dir → Dir) (h : s ≠ i) : d.on i f s = d s := by simp [Disk.on, h]

theorem readDir_settled {D : Dir} {b c : Bool} {v : Option Nat} (h : Settled D b c v) : readDir D = flagsOf b c := by
  cases h <;> rfl

/-- Opening a settled directory. -/
theorem openPart_settled {d : Disk} {i : Nat} {b c : Bool} {v : Option Nat} (h : Settled (d i) b c v) (f : Flags) (hf : flagsOf b c = some f) :
    openPart d i f = .mem (some { storage := i, id := b, cloud := c }) := by
  generalize hD : d i = D at h
  cases h with
  | none => cases hf
  | _ =>
    cases hf
    simp [openPart, hD, Blob.opens, full]

/-- Recovery of a state with one directory in use. -/
theorem recover_one {order : List Nat} (hn : order.Nodup) {d : Disk} {i : Nat} (hi : i ∈ order) {a : List Act} {D' : Dir} {b c : Bool}
    {v : Option Nat} (h : Broken (d i) a i D' b c v) (he : ∀ s, s ≠ i → Empty (d s)) :
    recover order d = a.map Step.act ++
      (if b || c then [.mem (some { storage := i, id := b, cloud := c })] else []) := by
  have hv := validate_broken (order := order) h he
  have hall : validateAll order (fun s => readDir (d s)) order =
      (a.map Step.act, setPart (fun s => readDir (d s)) i (flagsOf b c)) := by
    refine validateAll_one order _ i _ _ hv order hn hi ?_
    intro s _ e
    refine ⟨validate_none (readDir_empty (he s e)), validate_none ?_⟩
    simp only [setPart, if_neg e]
    exact readDir_empty (he s e)
  unfold recover
  rw [hall]
  dsimp only
  have e1 := exec_acts d a []
  rw [List.append_nil] at e1
  rw [e1]
  simp only [exec]
  rw [foldl_broken h]
  congr 1
  have hs := (broken_settled h).1
  have hs' : Settled (d.on i (fun _ => D') i) b c v := by rw [on_eq]; exact hs
  cases hf : flagsOf b c with
  | none =>
    rw [openAll_none]
    · cases b <;> cases c <;> simp_all [flagsOf]
    · intro s _
      unfold setPart
      split
      · rfl
      · rename_i e; exact readDir_empty (he s e)
  | some f =>
    rw [openAll_one _ _ i f (by simp [setPart]) order hn hi]
    · rw [openPart_settled hs' f hf]
      cases b <;> cases c <;> simp_all [flagsOf]
    · intro s _ e
      simp only [setPart, if_neg e]
      exact readDir_empty (he s e)

theorem torn_rest {order : List Nat} {w : World} {v : Option Nat} (h : Rest order w v) : Torn order w.disk v := by
  unfold Rest at h
  split at h
  · obtain ⟨rfl, h⟩ := h
    exact .none h
  · obtain ⟨h1, h2, _, _, h4⟩ := h
    exact .one _ _ _ _ _ _ h1 h2 (.settled _ _ _ _ _ h4)

theorem recover_none {order : List Nat} {d : Disk} (h : ∀ s, Empty (d s)) : recover order d = [] := by
  unfold recover
  rw [validateAll_same _ _ _ (fun s _ => validate_none (readDir_empty (h s)))]
  dsimp only
  rw [openAll_none _ _ _ (fun s _ => readDir_empty (h s))]
  rfl

/-- Recovery of a state with two directories in use. -/
theorem recover_two {order : List Nat} (hn : order.Nodup) {d : Disk} {i j v : Nat} {r : Option Blob} (hi : i ∈ order) (hj : j ∈ order)
    (hij : i ≠ j) (he : ∀ s, s ≠ i → s ≠ j → Empty (d s)) (hD : d i = ⟨some (full v), none, none, none, none, r⟩)
    (hB : ∃ b r, d j = ⟨none, some b, none, none, none, r⟩ ∨ d j = ⟨none, none, some b, none, none, r⟩) :
    ∃ x D, perform d x = d.on j (fun _ => D) ∧ Empty D ∧
      recover order d = [.act x, .mem (some { storage := i, id := true })] := by
  have hri : readDir (d i) = some ⟨true, false, false, false, false⟩ := by rw [hD]; rfl
  have key : ∃ x D, perform d x = d.on j (fun _ => D) ∧ Empty D ∧
      validate order (fun s => readDir (d s)) j = ([.act x], setPart (fun s => readDir (d s)) j none) := by
    obtain ⟨b, r', hB | hB⟩ := hB
    · refine ⟨.unlink j .incomplete, ⟨none, none, none, none, none, r'⟩, ?_, ⟨r', rfl⟩, ?_⟩
      · funext x
        simp only [perform, Disk.on]
        split
        · rename_i e; rw [e, hB]; rfl
        · rfl
      · unfold validate
        dsimp only
        rw [hB]
        rfl
    · refine ⟨.unlink j .complete, ⟨none, none, none, none, none, r'⟩, ?_, ⟨r', rfl⟩, ?_⟩
      · funext x
        simp only [perform, Disk.on]
        split
        · rename_i e; rw [e, hB]; rfl
        · rfl
      · have hf := findPart_one (order := order) (parts := fun s => readDir (d s)) hij hi
          (fun s _ e1 e2 => readDir_empty (he s e2 e1)) _ hri
        unfold validate
        dsimp only
        rw [hB]
        simp only [readDir, Option.isSome_none, Option.isSome_some, Bool.or_false, Bool.false_or, Bool.or_true, if_true]
        simp only [readDir] at hf
        rw [hf]
        rfl
  obtain ⟨x, D, k1, k2, k3⟩ := key
  refine ⟨x, D, k1, k2, ?_⟩
  have hall : validateAll order (fun s => readDir (d s)) order = ([.act x], setPart (fun s => readDir (d s)) j none) := by
    refine validateAll_one order _ j _ _ k3 order hn hj ?_
    intro s _ e
    by_cases e2 : s = i
    · subst e2
      refine ⟨?_, ?_⟩
      · unfold validate; dsimp only; rw [hri]
      · unfold validate setPart; dsimp only; rw [if_neg e]; rw [hri]
    · refine ⟨validate_none (readDir_empty (he s e2 e)), validate_none ?_⟩
      simp only [setPart, if_neg e]
      exact readDir_empty (he s e2 e)
  unfold recover
  rw [hall]
  dsimp only
  simp only [exec]
  rw [openAll_one _ _ i ⟨true, false, false, false, false⟩ ?_ order hn hi ?_]
  · have hs : Settled (perform d x i) true false (some v) := by
      rw [k1, on_ne _ _ hij, hD]
      exact .local v r
    rw [openPart_settled hs _ rfl]
    rfl
  · simp only [setPart, if_neg hij]
    exact hri
  · intro s _ e
    unfold setPart
    split
    · rfl
    · rename_i e2; exact readDir_empty (he s e e2)

theorem exec_mems : ∀ (ms : List Step) (w : World), (∀ x ∈ ms, ∃ m, x = .mem m) → (exec w ms).disk = w.disk
  | [], _, _ => rfl
  | x :: ms, w, h => by
    obtain ⟨m, rfl⟩ := h x (List.mem_cons_self ..)
    exact exec_mems ms _ (fun y hy => h y (List.mem_cons_of_mem _ hy))

theorem take_disk (d : Disk) (a : List Act) (hl : a.length ≤ 1) (ms : List Step) (hm : ∀ x ∈ ms, ∃ m, x = .mem m) (n : Nat) :
    (exec { disk := d, mem := none } ((a.map Step.act ++ ms).take n)).disk = d ∨
    (exec { disk := d, mem := none } ((a.map Step.act ++ ms).take n)).disk =
      (exec { disk := d, mem := none } (a.map Step.act ++ ms)).disk := by
  have ht : ∀ n, ∀ x ∈ ms.take n, ∃ m, x = .mem m := fun n x hx => hm x (List.mem_of_mem_take hx)
  cases a with
  | nil =>
    left
    exact exec_mems _ _ (ht n)
  | cons x a =>
    have : a = [] := by
      cases a with
      | nil => rfl
      | cons => simp at hl
    subst this
    cases n with
    | zero => exact .inl rfl
    | succ n =>
      right
      simp only [List.map_cons, List.map_nil, List.cons_append, List.nil_append, List.take_succ_cons, exec]
      rw [exec_mems _ _ (ht n), exec_mems _ _ hm]

/-- Recovery of what a crash left: it succeeds, finds the version, and may itself
be cut off anywhere. -/
theorem torn_recover {order : List Nat} (hn : order.Nodup) {d : Disk} {v : Option Nat} (h : Torn order d v) :
    fails (recover order d) = false ∧ Rest order (exec { disk := d, mem := none } (recover order d)) v ∧
      ∀ n, Torn order (exec { disk := d, mem := none } ((recover order d).take n)).disk v := by
  cases h with
  | none h =>
    rw [recover_none h]
    exact ⟨rfl, ⟨rfl, h⟩, fun n => by simpa [exec] using Torn.none (order := order) h⟩
  | one i a D' b c v hi he hb =>
    rw [recover_one hn hi hb he]
    obtain ⟨hs, hl⟩ := broken_settled hb
    have hrest : Rest order (exec { disk := d, mem := none }
        (a.map Step.act ++ (if b || c then [.mem (some { storage := i, id := b, cloud := c })] else []))) v := by
      rw [exec_acts]
      rw [foldl_broken hb]
      by_cases e : (b || c) = true
      · rw [if_pos e]
        refine ⟨hi, ?_, rfl, ?_⟩
        · intro s k
          dsimp only [exec]
          rw [on_ne _ _ k]
          exact he s k
        · dsimp only [exec]
          rw [on_eq]
          exact ⟨rfl, hs⟩
      · rw [if_neg e]
        simp only [Bool.or_eq_true, not_or, Bool.not_eq_true] at e
        obtain ⟨rfl, rfl⟩ := e
        have hv : v = none := by cases hs; rfl
        refine ⟨hv, ?_⟩
        intro s
        by_cases k : s = i
        · subst k
          dsimp only [exec]
          rw [on_eq]
          cases hs
          exact ⟨_, rfl⟩
        · dsimp only [exec]
          rw [on_ne _ _ k]
          exact he s k
    refine ⟨?_, hrest, ?_⟩
    · unfold fails
      rw [List.any_append, Bool.or_eq_false_iff]
      refine ⟨?_, ?_⟩
      · rw [List.any_map, List.any_eq_false]
        intro x _
        simp
      · split <;> simp
    · intro n
      have t0 : Torn order d v := .one i a D' b c v hi he hb
      have t1 := torn_rest hrest
      rcases take_disk d a hl (if b || c then [.mem (some { storage := i, id := b, cloud := c })] else [])
        (by intro x hx; split at hx <;> simp_all) n with e | e
      · rw [e]; exact t0
      · rw [e]; exact t1
  | two i j v r hi hj hij he hD hB =>
    have t0 : Torn order d (some v) := .two i j v r hi hj hij he hD hB
    obtain ⟨x, D, k1, k2, k3⟩ := recover_two hn hi hj hij he hD hB
    rw [k3]
    have hrest : Rest order (exec { disk := d, mem := none } [.act x, .mem (some { storage := i, id := true })]) (some v) := by
      simp only [exec]
      rw [k1]
      refine ⟨hi, ?_, rfl, ?_⟩
      · intro s k
        by_cases e : s = j
        · subst e; dsimp only; rw [on_eq]; exact k2
        · dsimp only; rw [on_ne _ _ e]; exact he s k e
      · dsimp only; rw [on_ne _ _ hij, hD]; exact ⟨rfl, .local v r⟩
    refine ⟨rfl, hrest, ?_⟩
    have t1 := torn_rest hrest
    intro n
    match n with
    | 0 => exact t0
    | 1 => exact t1
    | n + 2 => simpa [exec] using t1

theorem torn_restart {order : List Nat} (hn : order.Nodup) : ∀ (recs : List Nat) {d : Disk} {v : Option Nat}, Torn order d v →
    ∃ w, restart order d recs = some w ∧ Rest order w v
  | [], d, v, h => by
    obtain ⟨h1, h2, _⟩ := torn_recover hn h
    refine ⟨_, ?_, h2⟩
    unfold restart
    dsimp only
    rw [h1]
    rfl
  | n :: recs, d, v, h => by
    obtain ⟨_, _, h3⟩ := torn_recover hn h
    exact torn_restart hn recs (h3 n)

end Verif.C27
