import Verif.Proofs.C82Kept
import Verif.Props.C58

/-! Lemmas for C82: ranges, and from the text to the operation. -/
namespace Verif.C82
open Parse Store

theorem Changed.same {H : List Home} {c : Partition} : ∀ {l : List Piece}, (∀ p ∈ l, ¬ Named c p) → Changed H c l l
  | [], _ => .nil
  | p :: _, h => .other (h p (by simp)) (Changed.same fun q hq => h q (by simp [hq]))

theorem Changed.append {H : List Home} {c : Partition} {l l' : List Piece} (h : Changed H c l l') {k k' : List Piece}
    (h' : Changed H c k k') : Changed H c (l ++ k) (l' ++ k') := by
  induction h with
  | nil => exact h'
  | named n d _ ih => rw [List.append_assoc]; exact .named n d ih
  | other n _ ih => exact .other n ih

theorem Changed.other_mem {H : List Home} {c : Partition} {l l' : List Piece} (h : Changed H c l l') {p : Piece}
    (hp : p ∈ l) (hn : ¬ Named c p) : p ∈ l' := by
  induction h with
  | nil => exact hp
  | named n _ _ ih =>
    rcases List.mem_cons.1 hp with rfl | hp
    · exact absurd n hn
    · exact List.mem_append_right _ (ih hp)
  | other _ _ ih =>
    rcases List.mem_cons.1 hp with rfl | hp
    · simp
    · exact List.mem_cons_of_mem _ (ih hp)

theorem named_range {c : Partition} (h : Several c) {p : Piece} : Named c p ↔ c.min ≤ p.min ∧ p.max ≤ c.max :=
  ⟨fun n => n.elim (·.2) (fun n => absurd h n.1), fun n => .inl ⟨h, n⟩⟩

theorem named_one {c : Partition} (h : ¬ Several c) {p : Piece} : Named c p ↔ p.min ≤ c.min ∧ c.min ≤ p.max :=
  ⟨fun n => n.elim (fun n => absurd n.1 h) (·.2), fun n => .inr ⟨h, n⟩⟩

theorem gte_at {H : List Home} {A B : List Piece} {p : Piece} {pos : Nat} (hA : ∀ a ∈ A, a.max < pos) (hp : pos ≤ p.max) :
    Store.gte ⟨H, A ++ p :: B⟩ pos = some p := by
  have : A.find? (fun p => decide (pos ≤ p.max)) = none := by
    rw [List.find?_eq_none]; intro a ha; have := hA a ha; simp; omega
  simp only [Store.gte, List.find?_append, this, List.find?_cons, hp, decide_true, Option.none_or]

theorem gte_none {H : List Home} {A : List Piece} {pos : Nat} (hA : ∀ a ∈ A, a.max < pos) : Store.gte ⟨H, A⟩ pos = none := by
  simp only [Store.gte, List.find?_eq_none]; intro a ha; have := hA a ha; simp; omega

/-- The loop over the partitions `S`, those before being done. -/
theorem range_does {H : List Home} {c : Partition} (hc : Several c) : ∀ (S A : List Piece) (pos n : Nat),
    Good ⟨H, A ++ S⟩ → (∀ a ∈ A, a.max < pos) → (∀ p ∈ S, pos ≤ p.min ∧ c.min ≤ p.min ∧ p.max < 18446744073709551615) →
    S.length < n → (∀ p ∈ S, Named c p → ∃ r, Does H c p r) →
    (Move c → ∀ p ∈ S, ∀ h ∈ H, Named c p → h.name = c.storage → h.name = p.home → h.cloud = true →
      p.onDisk = true ∨ p.onCloud = true) →
    ∃ S' b, Store.range (fun s m => act c s m true) n ⟨H, A ++ S⟩ pos c.max = .ok ⟨H, A ++ S'⟩ b ∧ Changed H c S S' := by
  intro S
  induction S with
  | nil =>
    intro A pos n hg hA _ hn _ _
    obtain ⟨n, rfl⟩ : ∃ k, n = k + 1 := ⟨n - 1, by simp at hn; omega⟩
    refine ⟨[], true, ?_, .nil⟩
    simp only [Store.range, Store.foreach, gte_none (H := H) (A := A ++ []) (pos := pos) (by simpa using hA)]
  | cons p S ih =>
    intro A pos n hg hA hS hn hd he
    obtain ⟨n, rfl⟩ : ∃ k, n = k + 1 := ⟨n - 1, by simp at hn; omega⟩
    have ha := hg.at
    obtain ⟨p1, p2, p3⟩ := hS p (by simp)
    have hgte := gte_at (H := H) (B := S) hA (p := p) (by have := ha.ok; omega)
    by_cases hmax : p.max ≤ c.max
    · have hnm : Named c p := (named_range hc).2 ⟨p2, hmax⟩
      obtain ⟨r, hr⟩ := hd p (by simp) hnm
      have fit : Fit H p := hg.fit (p := p) (by simp)
      obtain ⟨b, hb⟩ := act_does hg.homes ha fit (Nat.le_refl _) ha.ok true hr
        (fun m h hh e1 e2 e3 => he m p (by simp) h hh hnm e1 e2 e3)
      have hw : wrapU64 ((p.max + 1 : Nat) : Int) = p.max + 1 := wrapU64_id (by omega)
      have k := (does_keeps fit hr).1
      have hg' : Good ⟨H, (A ++ r.toList) ++ S⟩ := by
        cases r with
        | none => exact hg.sublist (by simp)
        | some q => obtain ⟨q1, q2, q3⟩ := k q rfl; simpa using hg.put q1 q2 q3
      obtain ⟨S', b', h1, h2⟩ := ih (A ++ r.toList) (p.max + 1) n hg' (by
          intro a haa
          rcases List.mem_append.1 haa with h | h
          · have := hA a h; have := ha.ok; omega
          · cases r with
            | none => cases h
            | some q =>
              simp only [Option.toList_some, List.mem_singleton] at h
              subst h
              have := (k a rfl).2.1
              omega)
        (fun q hq => ⟨ha.after q hq, (hS q (by simp [hq])).2⟩)
        (by simp at hn; omega) (fun q hq => hd q (by simp [hq])) (fun m q hq => he m q (by simp [hq]))
      refine ⟨r.toList ++ S', b', ?_, .named hnm hr h2⟩
      simp only [Store.range, Store.foreach, hgte, if_pos (And.intro p1 hmax), hw, hb, Reply.andThen]
      rw [← List.append_assoc, h1, List.append_assoc]
    · refine ⟨p :: S, true, ?_, ?_⟩
      · simp only [Store.range, Store.foreach, hgte]
        rw [if_neg (fun h => hmax h.2)]
      · refine Changed.same fun q hq nm => ?_
        have := ((named_range hc).1 nm).2
        rcases List.mem_cons.1 hq with rfl | hq
        · exact hmax this
        · have := ha.after q hq
          have := (hg.sound q (by simp [hq])).1
          omega

/-- The partitions below the start of a range come first. -/
theorem split_start {min : Nat} : ∀ {L : List Piece}, L.Pairwise (fun p q => p.max < q.min) →
    (∀ p ∈ L, p.min ≤ p.max) → (∀ p ∈ L, min ≤ p.min ∨ p.max < min) →
    ∃ A S, L = A ++ S ∧ (∀ a ∈ A, a.max < min) ∧ ∀ p ∈ S, min ≤ p.min := by
  intro L
  induction L with
  | nil => exact fun _ _ _ => ⟨[], [], rfl, nofun, nofun⟩
  | cons p L ih =>
    intro h1 h2 h3
    rw [List.pairwise_cons] at h1
    rcases h3 p (by simp) with h | h
    · refine ⟨[], p :: L, rfl, nofun, ?_⟩
      intro q hq
      rcases List.mem_cons.1 hq with rfl | hq
      · exact h
      · have := h1.1 q hq; have := h2 p (by simp); omega
    · obtain ⟨A, S, e, k1, k2⟩ := ih h1.2 (fun q hq => h2 q (by simp [hq])) (fun q hq => h3 q (by simp [hq]))
      refine ⟨p :: A, S, by rw [e]; rfl, ?_, k2⟩
      intro a ha
      rcases List.mem_cons.1 ha with rfl | ha
      · exact h
      · exact k1 a ha

/-- The text of a command and what main_execute calls. -/
theorem main_eq {env : Env} {text : List Nat} {items : List C58.Item} {c : Partition} (htext : C58.Text items text)
    (hs : C58.Says C58.documented env (.partition c) items) (ht : c.type ≠ .create) (s : Store) :
    (Drop c → c.mask = 9 ∨ c.mask = 8 ∨ c.mask = 1) ∧
    (Several c → Execute.main_execute env s text =
      Store.range (fun s m => act c s m true) (2 * s.parts.length + 1) s c.min c.max) ∧
    (¬ Several c → Execute.main_execute env s text = act c s c.min c.ifExists) := by
  have hcode : C58.Says C58.code env (.partition c) items := by
    cases hs <;> constructor <;> assumption
  have hp : parse env text = .ok (.partition c) := C58.C58_code.2 ⟨items, htext, hcode⟩
  have hmask : Drop c → c.mask = 9 ∨ c.mask = 8 ∨ c.mask = 1 := by
    cases hs with
    | drop _ _ _ ho => cases ho <;> simp
    | dropRange _ _ _ ho => cases ho <;> simp
    | _ => simp [Drop]
  refine ⟨hmask, ?_, ?_⟩
  · intro hsev
    simp only [Execute.main_execute, hp]
    rcases hsev with h | h | h | h | h <;>
      simp [Execute.cmds, Execute.type, h, Execute.partition, act, Store.drop_range, Store.refresh_range,
        Store.download_range, Store.upload_range]
  · intro hsev
    simp only [Execute.main_execute, hp]
    cases h : c.type <;>
      simp_all [Execute.cmds, Execute.type, Execute.partition, act, Several]

end Verif.C82
