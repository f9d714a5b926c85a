import Verif.Proofs.C82Range

/-! C82: a command on partitions does what its text says. -/
namespace Verif.C82
open Parse Lex Execute

/-- Partial: a command that can be carried out does to the partitions that it names
what it says, and to no others.  Missing: ranges that start inside a partition or
partitions that end at the last id, and a MOVE of an unwritten partition into its own
storage with a cloud, for which it is false, see below. -/
theorem C82_partial {env : Env} {s : Store} {text : List Nat} {items : List C58.Item} {c : Partition} (hs : Good s)
    (htext : C58.Text items text) (hsays : C58.Says C58.documented env (.partition c) items) (ht : c.type ≠ .create)
    (hclear : Clear s c) (helse : Elsewhere s c) (hp : Possible s c) :
    ∃ parts b, main_execute env s text = .ok { s with parts := parts } b ∧ Changed s.homes c s.parts parts := by
  obtain ⟨hm, hr, h1⟩ := main_eq htext hsays ht s
  obtain ⟨H, L⟩ := s
  by_cases hsev : Several c
  · obtain ⟨A, S, rfl, hA, hS⟩ := split_start (min := c.min) hs.order (fun p hp => (hs.sound p hp).1)
      (fun p hp => (hclear hsev p hp).2)
    obtain ⟨S', b, e1, e2⟩ := range_does hsev S A c.min (2 * (A ++ S).length + 1) hs hA
      (fun p hp => ⟨hS p hp, hS p hp, (hclear hsev p (by simp [hp])).1⟩) (by simp; omega)
      (fun p hp' => hp.2 p (by simp [hp'])) (fun m p hp' => helse m p (by simp [hp']))
    refine ⟨A ++ S', b, by rw [hr hsev]; exact e1, ?_⟩
    refine Changed.append (Changed.same fun a ha n => ?_) e2
    have := ((named_range hsev).1 n).1
    have := hA a ha
    have := (hs.sound a (by simp [ha])).1
    omega
  · rw [h1 hsev]
    cases hf : Store.find ⟨H, L⟩ c.min with
    | none =>
      have hnone : ∀ p ∈ L, ¬ Named c p := by
        intro p hpl n
        have := List.find?_eq_none.1 hf p hpl
        exact this (decide_eq_true ((named_one hsev).1 n))
      rcases find_absent hf ht c.ifExists with ⟨_, b, h⟩ | ⟨hie, _⟩
      · exact ⟨L, b, h, Changed.same hnone⟩
      · rcases hp.1 with h | h | ⟨p, hpl, n⟩
        · exact absurd h hsev
        · rw [hie] at h; cases h
        · exact absurd n (hnone p hpl)
    | some p =>
      obtain ⟨hin, A, B, hpl⟩ := find_split hf
      simp only at hpl
      subst hpl
      have hn : Named c p := (named_one hsev).2 hin
      have ha := hs.at
      obtain ⟨r, hd⟩ := hp.2 p (by simp) hn
      obtain ⟨b, hb⟩ := act_does hs.homes ha (hs.fit (p := p) (by simp)) hin.1 hin.2 c.ifExists hd
        (fun m h hh e1 e2 e3 => helse m p (by simp) h hh hn e1 e2 e3)
      refine ⟨_, b, hb, Changed.append (Changed.same fun a haa n => ?_) (.named hn hd (Changed.same fun q hq n => ?_))⟩
      · have := ((named_one hsev).1 n).2
        have := (ha.before a haa).2
        omega
      · have := ((named_one hsev).1 n).1
        have := ha.after q hq
        omega

/-- Partial: a command on one partition that cannot be carried out is refused and
changes nothing.  Missing: PARTITIONS BETWEEN, and a MOVE into a storage that there is
not of a partition on the cloud, for which it is false, see below. -/
theorem C82_refused_partial {env : Env} {s : Store} {text : List Nat} {items : List C58.Item} {c : Partition} (hs : Good s)
    (htext : C58.Text items text) (hsays : C58.Says C58.documented env (.partition c) items) (ht : c.type ≠ .create)
    (hone : ¬ Several c) (hmove : Move c → ∀ p ∈ s.parts, Named c p → p.onCloud = false) (hp : ¬ Possible s c) :
    ∃ m, main_execute env s text = .error s m := by
  obtain ⟨hm, _, h1⟩ := main_eq htext hsays ht s
  rw [h1 hone]
  obtain ⟨H, L⟩ := s
  cases hf : Store.find ⟨H, L⟩ c.min with
  | none =>
    have hnone : ∀ p ∈ L, ¬ Named c p := by
      intro p hpl n
      have := List.find?_eq_none.1 hf p hpl
      exact this (decide_eq_true ((named_one hone).1 n))
    rcases find_absent hf ht c.ifExists with ⟨hie, _⟩ | ⟨_, h⟩
    · exact absurd ⟨.inr (.inl hie), fun p hpl n => absurd n (hnone p hpl)⟩ hp
    · exact h
  | some p =>
    obtain ⟨hin, A, B, hpl⟩ := find_split hf
    simp only at hpl
    subst hpl
    have hn : Named c p := (named_one hone).2 hin
    have ha := hs.at
    have hd : ∀ r, ¬ Does H c p r := by
      intro r hr
      refine hp ⟨.inr (.inr ⟨p, by simp, hn⟩), fun q hq n => ?_⟩
      have hqp : q = p := by
        have b := (named_one hone).1 n
        simp only [List.mem_append, List.mem_cons] at hq
        rcases hq with h | h | h
        · have := (ha.before q h).2; omega
        · exact h
        · have := ha.after q h; omega
      exact ⟨r, hqp ▸ hr⟩
    rcases act_refused hs.homes ha (hs.fit (p := p) (by simp)) hin.1 hin.2 c.ifExists ht hm hd with h | ⟨hmv, _, m, h⟩
    · exact h
    · have hc := hmove hmv p (by simp) hn
      refine ⟨m, ?_⟩
      rw [h]
      obtain ⟨mi, ma, ho, d, cl, f, me⟩ := p
      simp only at hc
      subst hc
      simp

/-- Partial: whether a command is carried out or refused, the storages are the same, the
partitions are sound, and unless it is DROP they are the same with the same events.
Missing: CREATE PARTITION. -/
theorem C82_keeps_partial {env : Env} {s s' : Store} {text : List Nat} {items : List C58.Item} {c : Partition} (hs : Good s)
    (htext : C58.Text items text) (hsays : C58.Says C58.documented env (.partition c) items) (ht : c.type ≠ .create)
    (hr : (∃ b, main_execute env s text = .ok s' b) ∨ ∃ m, main_execute env s text = .error s' m) :
    s'.homes = s.homes ∧ Good s' ∧ (¬ Drop c → s'.parts.map holds = s.parts.map holds) := by
  obtain ⟨hm, h1, h2⟩ := main_eq htext hsays ht s
  suffices Kept c s s' from ⟨this.homes, this.good, this.holds⟩
  by_cases hsev : Several c
  · rw [h1 hsev] at hr
    rcases range_kept ht hm c.max (2 * s.parts.length + 1) s hs c.min with h | ⟨s2, k, h⟩
    · rw [h] at hr
      rcases hr with ⟨_, hr⟩ | ⟨_, hr⟩ <;> cases hr
    · rcases h with ⟨_, h⟩ | ⟨_, h⟩ <;> rw [h] at hr <;> rcases hr with ⟨_, hr⟩ | ⟨_, hr⟩ <;> cases hr <;> exact k
  · rw [h2 hsev] at hr
    obtain ⟨s2, k, h⟩ := act_kept hs ht hm c.min c.ifExists
    rcases h with ⟨_, h⟩ | ⟨_, h⟩ <;> rw [h] at hr <;> rcases hr with ⟨_, hr⟩ | ⟨_, hr⟩ <;> cases hr <;> exact k

/-- Partial: unless a partition ends at the last id, a command returns or is refused. -/
theorem C82_safe_partial {env : Env} {s : Store} {text : List Nat} {items : List C58.Item} {c : Partition} (hs : Good s)
    (htext : C58.Text items text) (hsays : C58.Says C58.documented env (.partition c) items) (ht : c.type ≠ .create)
    (hlast : ∀ p ∈ s.parts, p.max < 18446744073709551615) :
    (∃ s' b, main_execute env s text = .ok s' b) ∨ ∃ s' m, main_execute env s text = .error s' m := by
  obtain ⟨hm, h1, h2⟩ := main_eq htext hsays ht s
  by_cases hsev : Several c
  · rw [h1 hsev]
    rcases range_kept ht hm c.max (2 * s.parts.length + 1) s hs c.min with h | ⟨s2, k, ⟨b, h⟩ | ⟨m, h⟩⟩
    · refine absurd h (range_ends ht hm c.max _ s hs hlast c.min ?_)
      have : later s c.min ≤ s.parts.length := List.length_filter_le _ _
      omega
    · exact .inl ⟨s2, b, h⟩
    · exact .inr ⟨s2, m, h⟩
  · rw [h2 hsev]
    obtain ⟨s2, k, ⟨b, h⟩ | ⟨m, h⟩⟩ := act_kept hs ht hm c.min c.ifExists
    · exact .inl ⟨s2, b, h⟩
    · exact .inr ⟨s2, m, h⟩

/-- The control lock: exclusive for what changes settings, shared for SHOW, and none for
commands on partitions, which take it themselves. -/
theorem C82_locks (cmd : Cmd) : Execute.lock cmd = some (match cmd with
    | .show _ => .shared
    | .set _ _ | .cloudCreate _ _ | .cloudDrop _ _ | .cloudRename _ _ _ | .cloudAlter _ _ _ _ | .storageCreate _ _
    | .storageDrop _ _ | .storageRename _ _ _ | .storageAlter _ _ _ _ | .pipelineAlter _ => .exclusive
    | .empty | .debug _ | .checkpoint | .service | .rebalance | .partition _ => .none) := by
  cases cmd with
  | partition p => cases h : p.type <;> simp [Execute.lock, Execute.cmds, Execute.type, h]
  | _ => rfl

/-! ### Examples -/

def env0 : Env := ⟨10, [], 0, ⟨0, 0⟩, []⟩

/-- What is parsed is the text of a command. -/
theorem written {env : Env} {text : List Nat} {c : Partition} (h : parse env text = .ok (.partition c)) :
    ∃ items, C58.Text items text ∧ C58.Says C58.documented env (.partition c) items := by
  obtain ⟨items, h1, h2⟩ := C58.C58_code.1 h
  exact ⟨items, h1, by cases h2 <;> constructor <;> assumption⟩

def main : List Nat := bytes "main"
def cold : List Nat := bytes "cold"

/-- A storage without and one with a cloud. -/
def homes0 : List Home := [⟨main, false, false⟩, ⟨cold, true, true⟩]

/-- Three partitions, one on the cloud. -/
def store0 : Store :=
  ⟨homes0, [⟨0, 9, cold, false, true, [1], [2]⟩, ⟨10, 19, main, true, false, [11], []⟩, ⟨20, 29, main, false, false, [], [21]⟩]⟩

theorem good_of {s : Store} (h1 : s.homes = homes0) (h2 : s.parts.Pairwise fun p q => p.max < q.min)
    (h3 : ∀ p ∈ s.parts, (p.min ≤ p.max ∧ p.max < 18446744073709551616) ∧
      ((p.home = main ∧ p.onCloud = false) ∨ p.home = cold) ∧ (p.onDisk = false → p.onCloud = false → p.file = [])) :
    Good s := by
  refine ⟨by rw [h1]; decide, h2, fun p hp => (h3 p hp).1, fun p hp => ?_, fun p hp => (h3 p hp).2.2⟩
  rw [h1]
  rcases (h3 p hp).2.1 with ⟨e1, e2⟩ | e
  · exact ⟨⟨main, false, false⟩, by simp [homes0], e1.symm, by simp [e2]⟩
  · exact ⟨⟨cold, true, true⟩, by simp [homes0], e.symm, fun _ => rfl⟩

theorem good0 : Good store0 := good_of rfl (by decide) (by decide)

/-- The hypotheses of `C82_partial`: three partitions are moved into the storage with
the cloud, the first of them being there. -/
example : ∃ c, parse env0 (bytes "MOVE PARTITIONS BETWEEN 0 AND 100 INTO cold") = .ok (.partition c) ∧
    c.type ≠ .create ∧ Clear store0 c ∧ Elsewhere store0 c ∧ Possible store0 c ∧
    main_execute env0 store0 (bytes "MOVE PARTITIONS BETWEEN 0 AND 100 INTO cold") =
      .ok ⟨homes0, [⟨0, 9, cold, false, true, [1], [2]⟩, ⟨10, 19, cold, false, true, [11], []⟩,
        ⟨20, 29, cold, false, true, [21], []⟩]⟩ true := by
  refine ⟨{ type := .moveRange, min := 0, max := 100, storage := cold }, by decide +kernel, nofun,
    fun _ => by decide, ?_, ⟨.inl (by simp [Several]), ?_⟩, by decide +kernel⟩
  · intro _ p hp h hh _ e1 e2 _
    simp only [store0, List.mem_cons, List.not_mem_nil, or_false] at hp
    rcases hp with rfl | rfl | rfl
    · exact .inr rfl
    · exact .inl rfl
    · exact absurd (e1.symm.trans e2) (by decide)
  · intro p hp _
    by_cases e : cold = p.home
    · exact ⟨_, .stay (h := ⟨cold, true, true⟩) (.inr rfl) (by simp [store0, homes0]) rfl e⟩
    · exact ⟨_, .move (h := ⟨cold, true, true⟩) (.inr rfl) (by simp [store0, homes0]) rfl e⟩

/-- The hypotheses of `C82_refused_partial`: no cloud to download from. -/
example : ∃ c, parse env0 (bytes "DOWNLOAD PARTITION 12") = .ok (.partition c) ∧ c.type ≠ .create ∧ ¬ Several c ∧ ¬ Move c ∧
    ¬ Possible store0 c := by
  refine ⟨{ type := .download, min := 12 }, by decide +kernel, nofun, by simp [Several], by simp [Move], fun h => ?_⟩
  obtain ⟨r, hr⟩ := h.2 ⟨10, 19, main, true, false, [11], []⟩ (by simp [store0]) (.inr (by simp [Several]))
  cases hr with
  | @download h _ hh hn hc =>
    simp only [store0, homes0, List.mem_cons, List.not_mem_nil, or_false] at hh
    rcases hh with rfl | rfl
    · rcases hc with hc | hc <;> cases hc
    · exact absurd hn (by decide)
  | drop h | dropCloud h | dropStorage h => simp [Drop] at h
  | upload h | uploadNot h => simp [Upload] at h
  | refresh h => simp [Refresh] at h
  | move h | stay h => simp [Move] at h

/-- The hypotheses of `C82_keeps_partial` and `C82_safe_partial`: a command that
stops half way. -/
example : Good store0 ∧ (∀ p ∈ store0.parts, p.max < 18446744073709551615) ∧
    (∃ c, parse env0 (bytes "UPLOAD PARTITIONS BETWEEN 0 AND 29") = .ok (.partition c) ∧ c.type ≠ .create ∧ ¬ Drop c) ∧
    ∃ s' m, main_execute env0 store0 (bytes "UPLOAD PARTITIONS BETWEEN 0 AND 29") = .error s' m :=
  ⟨good0, by decide, ⟨{ type := .uploadRange, min := 0, max := 29 }, by decide +kernel, nofun, by simp [Drop]⟩,
    store0, "upload: partition storage has no associated cloud", by decide +kernel⟩

/-! ### Where it is false -/

/-- MOVE into a storage that there is not is refused, but only after the partition has
been removed from the cloud. -/
theorem C82_move_refused : main_execute env0 ⟨homes0, [⟨0, 9, cold, false, true, [1], []⟩]⟩ (bytes "MOVE PARTITION 5 INTO hot") =
    .error ⟨homes0, [⟨0, 9, cold, true, false, [1], []⟩]⟩ "refresh: storage not found" := by decide +kernel

/-- A command on several partitions is refused when some are done: the first is on
the cloud. -/
theorem C82_half_way : main_execute env0
      ⟨homes0, [⟨0, 9, cold, true, false, [1], []⟩, ⟨10, 19, main, true, false, [11], []⟩, ⟨20, 29, cold, true, false, [21], []⟩]⟩
      (bytes "UPLOAD PARTITIONS BETWEEN 0 AND 29") =
    .error ⟨homes0, [⟨0, 9, cold, true, true, [1], []⟩, ⟨10, 19, main, true, false, [11], []⟩,
      ⟨20, 29, cold, true, false, [21], []⟩]⟩ "upload: partition storage has no associated cloud" := by decide +kernel

/-- MOVE into the storage where the partition is, not yet written, is refused. -/
theorem C82_stay_refused : main_execute env0 ⟨homes0, [⟨0, 9, cold, false, false, [], [1]⟩]⟩ (bytes "MOVE PARTITION 5 INTO cold") =
    .error ⟨homes0, [⟨0, 9, cold, false, false, [], [1]⟩]⟩ "upload: partition file does not exist locally" := by decide +kernel

/-- A range that starts inside a partition does nothing. -/
theorem C82_inside : main_execute env0 ⟨homes0, [⟨0, 9, main, true, false, [1], []⟩, ⟨10, 19, main, true, false, [11], []⟩]⟩
      (bytes "DROP PARTITIONS BETWEEN 5 AND 30") =
    .ok ⟨homes0, [⟨0, 9, main, true, false, [1], []⟩, ⟨10, 19, main, true, false, [11], []⟩]⟩ true := by decide +kernel

/-- Two partitions, one up to the last id. -/
def last : Store := ⟨homes0, [⟨0, 9, main, true, false, [1], []⟩, ⟨100, 18446744073709551615, main, true, false, [101], []⟩]⟩

/-- DROP of a range starts over after a partition that ends at the last id: it drops
partitions before the range. -/
theorem C82_drops_others :
    main_execute env0 last (bytes "DROP PARTITIONS BETWEEN 100 AND 18446744073709551615") = .ok ⟨homes0, []⟩ true := by
  decide +kernel

/-- The other commands on such a range never end. -/
theorem C82_endless (n : Nat) : Store.range (fun s m => s.refresh m none true) n
    ⟨homes0, [⟨100, 18446744073709551615, main, true, false, [101], []⟩]⟩ 100 18446744073709551615 = .ub "range: endless" := by
  have hr : Store.refresh ⟨homes0, [⟨100, 18446744073709551615, main, true, false, [101], []⟩]⟩ 100 none true =
      .ok ⟨homes0, [⟨100, 18446744073709551615, main, true, false, [101], []⟩]⟩ false := by decide +kernel
  have h0 : ∀ n, Store.range (fun s m => s.refresh m none true) n
      ⟨homes0, [⟨100, 18446744073709551615, main, true, false, [101], []⟩]⟩ 0 18446744073709551615 = .ub "range: endless" := by
    intro n
    induction n with
    | zero => rfl
    | succ n ih =>
      have hf : Store.foreach ⟨homes0, [⟨100, 18446744073709551615, main, true, false, [101], []⟩]⟩ 0 18446744073709551615 =
          some (100, 0) := by decide +kernel
      simp only [Store.range, hf, hr, Reply.andThen]
      exact ih
  cases n with
  | zero => rfl
  | succ n =>
    have hf : Store.foreach ⟨homes0, [⟨100, 18446744073709551615, main, true, false, [101], []⟩]⟩ 100 18446744073709551615 =
        some (100, 0) := by decide +kernel
    simp only [Store.range, hf, hr, Reply.andThen]
    exact h0 n

theorem C82_false : ¬ Full := by
  intro h
  obtain ⟨items, h1, h2⟩ := written (env := env0) (text := bytes "DROP PARTITIONS BETWEEN 100 AND 18446744073709551615")
    (c := { type := .dropRange, min := 100, max := 18446744073709551615, mask := 9 }) (by decide +kernel)
  have hg : Good last := good_of rfl (by decide) (by decide)
  obtain ⟨parts, b, e, hc⟩ := (h env0 last _ items _ hg h1 h2 nofun).1
    ⟨.inl (.inl rfl), fun p _ _ => ⟨none, .drop (.inr rfl) rfl⟩⟩
  rw [C82_drops_others] at e
  cases e
  have := hc.other_mem (p := ⟨0, 9, main, true, false, [1], []⟩) (by simp [last])
    (fun n => absurd ((named_range (.inl rfl)).1 n).1 (by decide))
  cases this

end Verif.C82
