import Verif.Proofs.WholeMerge

/-! Helper lemmas: the steps of a refresh of the whole database. -/
namespace Verif.Whole
open Rb Spec Io Mapping Cursor
open Dur (partOf tget tset Key partOr)
open C84 (Limits)

/-- Files lie only where the directory lists them. -/
def NamesOK (names : List Nat) (disk : Nat → Files) : Prop := names.Nodup ∧ ∀ p, p ∉ names → disk p = {}

/-- A step that touches only the partitions. -/
structure Stepped (env : Env) (E A : List Event) (n : Nat) (w w' : Db) (slots : Nat → Dur.Slot) : Prop where
  map : MapRel env E A n w'.map w'.phase w'.disk slots
  wal : w'.wal = w.wal
  pending : w'.pending = w.pending
  names : NamesOK w.names w.disk → NamesOK w'.names w'.disk

/-- A slice of the index with the interval of the database. -/
def Fit (iv : Nat) (s : Slice CPart) : Prop :=
  s.max = s.min + iv - 1 ∧ partOf iv s.min = s.min ∧ s.min + iv ≤ 2147483648

theorem onPart_rel {env : Env} {E A : List Event} {n n' id : Nat} {w : Db} {db : Dur.Db}
    (h : MapRel env E A n w.map w.phase w.disk db.slots) (hl : Limits env E) (hid : id < 2147483648) (hn : n ≤ n')
    {f : Slice CPart → Phase → Files → Res (Option (CPart × Phase × Files))}
    {g : Dur.Part → Dur.Files → Option (Dur.Part × Dur.Files)}
    (hfg : ∀ s y, s.min = partOf env.iv id → Fit env.iv s → (db.slots s.min).part = some y →
      PartRel env E A n s.min s.val (w.phase s.min) (w.disk s.min) y (db.slots s.min).files →
      (f s (w.phase s.min) (w.disk s.min) = .ok none ∧ g y (db.slots s.min).files = none) ∨
      ∃ c ph fs y' afs, f s (w.phase s.min) (w.disk s.min) = .ok (some (c, ph, fs)) ∧
        g y (db.slots s.min).files = some (y', afs) ∧ PartRel env E A n' s.min c ph fs y' afs) :
    ∃ w', onPart w id f = .ok w' ∧ Stepped env E A n' w w' (Dur.onPart db (partOf env.iv id) g).slots := by
  rcases h.find hl hid with ⟨h1, h2⟩ | ⟨x, y, h1, h2, h3, h4, h5, h6⟩
  · refine ⟨w, by unfold onPart; rw [h1]; rfl, ?_, rfl, rfl, fun h => h⟩
    have : Dur.onPart db (partOf env.iv id) g = db := by
      unfold Dur.onPart
      rw [h2]
    rw [this]
    exact h.mono (List.Sublist.refl _) hn
  · have h5' := h5
    rw [h3] at h5'
    rcases hfg x.v y h3 h4 h5 h6 with ⟨a1, a2⟩ | ⟨c, ph, fs, y', afs, a1, a2, a3⟩
    · refine ⟨w, by unfold onPart; rw [h1]; simp only [Res.bind_ok]; rw [a1]; rfl, ?_, rfl, rfl, fun h => h⟩
      have : Dur.onPart db (partOf env.iv id) g = db := by
        unfold Dur.onPart
        rw [h3] at a2
        dsimp only
        rw [h5']
        dsimp only
        rw [a2]
      rw [this]
      exact h.mono (List.Sublist.refl _) hn
    · have hd : Dur.onPart db (partOf env.iv id) g = db.set (partOf env.iv id) { part := some y', files := afs } := by
        unfold Dur.onPart
        rw [h3] at a2
        dsimp only
        rw [h5']
        dsimp only
        rw [a2]
      refine ⟨{ w with
          map := setAt w.map x c
          phase := fun q => if q = x.v.min then ph else w.phase q
          disk := fun q => if q = x.v.min then fs else w.disk q
          names := if x.v.min ∈ w.names then w.names else w.names ++ [x.v.min] },
        by unfold onPart; rw [h1]; simp only [Res.bind_ok]; rw [a1]; rfl, ?_, rfl, rfl, ?_⟩
      · rw [hd]
        have hs : (db.set (partOf env.iv id) { part := some y', files := afs }).slots x.v.min =
            { part := some y', files := afs } := by
          rw [Dur.set_slots, if_pos h3]
        refine h.update (List.Sublist.refl _) hn h2 (y := y') ?_ ?_ ?_
        · rw [hs]
        · rw [hs]
          dsimp only
          rw [if_pos rfl, if_pos rfl]
          exact a3
        · intro q hq
          refine ⟨?_, by dsimp only; rw [if_neg hq], by dsimp only; rw [if_neg hq]⟩
          rw [Dur.set_slots, if_neg (by rw [← h3]; exact hq)]
      · rintro ⟨n1, n2⟩
        dsimp only
        refine ⟨?_, ?_⟩
        · split
          · exact n1
          · rename_i hx
            rw [List.nodup_append]
            refine ⟨n1, by simp, ?_⟩
            intro a ha b hb
            simp only [List.mem_singleton] at hb
            subst hb
            rintro rfl
            exact hx ha
        · intro p hp
          have hne : p ≠ x.v.min := by
            rintro rfl
            apply hp
            split
            · assumption
            · simp
          dsimp only
          rw [if_neg hne]
          apply n2
          intro hm
          apply hp
          split
          · exact hm
          · simp [hm]

theorem held_eq {env : Env} {w : Db} {db : Dur.Db} {s : Slice CPart} (hi : 0 < env.iv) (hs : Fit env.iv s)
    (hp : w.pending = db.pending) : held w s = Dur.held env.iv db s.min := by
  unfold held Dur.held
  rw [hp]
  cases db.pending with
  | none => rfl
  | some b =>
    obtain ⟨l, es⟩ := b
    simp only [Option.any_some]
    congr 1
    funext e
    obtain ⟨h1, h2, h3⟩ := hs
    have hin := partOf_in hi e.id
    unfold sliceIn
    by_cases hc : partOf env.iv e.id = s.min
    · rw [hc] at hin
      have a1 : s.min ≤ e.id := hin.1
      have a2 : e.id ≤ s.max := by omega
      simp [a1, a2, hc]
    · have : ¬ (s.min ≤ e.id ∧ e.id ≤ s.max) := by
        rintro ⟨a, b⟩
        exact hc (partOf_of_in h2 a (by omega) hi)
      simp only [beq_eq_false_iff_ne.2 hc]
      simpa using this

/-- What is not due does nothing. -/
theorem onPart_same {env : Env} {E A : List Event} {n id : Nat} {w : Db} {slots : Nat → Dur.Slot}
    (h : MapRel env E A n w.map w.phase w.disk slots) (hl : Limits env E) (hid : id < 2147483648)
    {f : Slice CPart → Phase → Files → Res (Option (CPart × Phase × Files))}
    (hf : ∀ s fs, f s (w.phase (partOf env.iv id)) fs = .ok none) : onPart w id f = .ok w := by
  unfold onPart
  rcases h.find hl hid with ⟨h1, _⟩ | ⟨x, y, h1, h2, h3, h4, h5, h6⟩
  · rw [h1]
    rfl
  · rw [h1]
    simp only [Res.bind_ok]
    rw [h3, hf]
    rfl

theorem begin_rel {env : Env} {E A : List Event} {n id : Nat} {w : Db} {db : Dur.Db}
    (h : MapRel env E A n w.map w.phase w.disk db.slots) (hl : Limits env E) (hid : id < 2147483648)
    (hp : w.pending = db.pending) (hnf : w.phase (partOf env.iv id) ≠ .failed) :
    ∃ w', begin_ w id = .ok w' ∧ Stepped env E A n w w' (Dur.begin_ env.iv db (partOf env.iv id)).slots := by
  have hb : Dur.begin_ env.iv db (partOf env.iv id) = Dur.onPart db (partOf env.iv id) (fun x fs =>
      if Dur.held env.iv db (partOf env.iv id) then none else
      if x.phase = .idle then some ({ x with act := x.prev, prev := x.act, phase := .begun }, fs) else none) := by
    unfold Dur.begin_
    by_cases hh : Dur.held env.iv db (partOf env.iv id) = true
    · rw [if_pos hh]
      unfold Dur.onPart
      simp only [hh, if_true]
      cases (db.slots (partOf env.iv id)).part <;> rfl
    · rw [if_neg hh]
      simp only [hh]
      rfl
  rw [hb]
  refine onPart_rel h hl hid (Nat.le_refl _) ?_
  intro s y hs hf hy hr
  rw [← hs] at hnf
  rw [← hs, ← held_eq hl.interval.1 hf hp]
  by_cases hh : held w s = true
  · left
    simp only [hh, if_true]
    cases w.phase s.min <;> exact ⟨rfl, trivial⟩
  · simp only [hh]
    have hph := hr.phase
    cases hw : w.phase s.min <;> cases hy2 : y.phase <;> rw [hw, hy2] at hph <;> first | exact hph.elim | exact absurd hw hnf | skip
    · right
      exact ⟨_, _, _, _, _, rfl, rfl, hr.prev, hr.act, hr.file, hph, hr.files⟩
    all_goals exact .inl ⟨rfl, rfl⟩

theorem merge_rel {env : Env} {E A : List Event} {n k id : Nat} {w : Db} {db : Dur.Db} {H : List Wal.Rec}
    (h : MapRel env E A n w.map w.phase w.disk db.slots) (hl : Limits env E) (hid : id < 2147483648)
    (hi : Dur.Inv env.iv db H k) (hlsn : db.lsn < 18446744073709551616) (hA : ∀ e ∈ A, WF e) (hs : A.Sublist E)
    (hn : n + 1 < 4294967296) (hnf : w.phase (partOf env.iv id) ≠ .failed) {pad : Event → Bytes} {tc tr : Nat} (hpad : ∀ e, e.key.length ≤ (pad e).length)
    (htc : tc < 18446744073709551616) (htr : tr < 18446744073709551616) :
    ∃ w', merge env w id pad tc tr = .ok w' ∧ Stepped env E A (n + 1) w w' (Dur.merge db (partOf env.iv id)).slots := by
  unfold merge Dur.merge
  refine onPart_rel h hl hid (Nat.le_succ _) ?_
  intro s y hs' hf hy hr
  rw [← hs'] at hnf
  have hph := hr.phase
  cases hw : w.phase s.min <;> cases hy2 : y.phase <;> rw [hw, hy2] at hph <;> first | exact hph.elim | exact absurd hw hnf | skip
  case begun.begun =>
    right
    have hok := (hi.slots s.min).part
    rw [Dur.partOr_some hy] at hok
    have := hok.fb
    have := hok.pb
    obtain ⟨f, f1, f2⟩ := merge_file hl hr.prev hr.file hf.1 hf.2.2 hA hs hn (by omega) (by omega) hpad htc htr
    have hinc : (w.disk s.min).incomplete = none := hph
    refine ⟨s.val, .merged f, { w.disk s.min with incomplete := some f.file }, _, _, ?_, rfl, ?_⟩
    · dsimp only
      rw [f1]
      simp only [Res.bind_ok]
      rw [hinc]
      rfl
    · refine ⟨hr.act, hr.prev, hr.file.mono (Nat.le_succ _), ⟨rfl, f2⟩, ?_⟩
      exact ⟨hr.files.id_.mono (Nat.le_succ _), hr.files.complete.mono (Nat.le_succ _), rfl⟩
  all_goals exact .inl ⟨rfl, rfl⟩

theorem apply_rel {env : Env} {E A : List Event} {n id : Nat} {w : Db} {db : Dur.Db}
    (h : MapRel env E A n w.map w.phase w.disk db.slots) (hl : Limits env E) (hid : id < 2147483648)
    (hp : w.pending = db.pending) (hnf : w.phase (partOf env.iv id) ≠ .failed) :
    ∃ w', apply_ w id = .ok w' ∧ Stepped env E A n w w' (Dur.apply_ env.iv db (partOf env.iv id)).slots := by
  have hb : Dur.apply_ env.iv db (partOf env.iv id) = Dur.onPart db (partOf env.iv id) (fun x fs =>
      if Dur.held env.iv db (partOf env.iv id) then none else
      match x.phase with
      | .merged f => some ({ file := some f, act := x.act, prev := {}, phase := .applied f }, fs)
      | _ => none) := by
    unfold Dur.apply_
    by_cases hh : Dur.held env.iv db (partOf env.iv id) = true
    · rw [if_pos hh]
      unfold Dur.onPart
      simp only [hh, if_true]
      cases (db.slots (partOf env.iv id)).part <;> rfl
    · rw [if_neg hh]
      simp only [hh]
      rfl
  rw [hb]
  refine onPart_rel h hl hid (Nat.le_refl _) ?_
  intro s y hs hf hy hr
  rw [← hs] at hnf
  rw [← hs, ← held_eq hl.interval.1 hf hp]
  by_cases hh : held w s = true
  · left
    simp only [hh, if_true]
    cases w.phase s.min <;> exact ⟨rfl, trivial⟩
  · simp only [hh]
    have hph := hr.phase
    cases hw : w.phase s.min <;> cases hy2 : y.phase <;> rw [hw, hy2] at hph <;> first | exact hph.elim | exact absurd hw hnf | skip
    case merged.merged f g =>
      right
      exact ⟨_, _, _, _, _, rfl, rfl, hr.act, memRel_init _ _ _, hph.2, ⟨f, hph.1, hph.2⟩, hr.files⟩
    all_goals exact .inl ⟨rfl, rfl⟩

/-- A refresh that fails and leaves a file. -/
theorem failed_rel {env : Env} {E A : List Event} {n id : Nat} {w : Db} {db : Dur.Db} {b : Bytes}
    (h : MapRel env E A n w.map w.phase w.disk db.slots) (hl : Limits env E) (hid : id < 2147483648)
    (hnf : w.phase (partOf env.iv id) ≠ .failed) :
    ∃ w', fail w id (some b) = .ok w' ∧ Stepped env E A n w w' (Dur.merge db (partOf env.iv id)).slots := by
  unfold fail Dur.merge
  refine onPart_rel h hl hid (Nat.le_refl _) ?_
  intro s y hs hf hy hr
  rw [← hs] at hnf
  have hph := hr.phase
  cases hw : w.phase s.min <;> cases hy2 : y.phase <;> rw [hw, hy2] at hph <;> first | exact hph.elim | exact absurd hw hnf | skip
  case begun.begun =>
    right
    exact ⟨_, _, _, _, _, rfl, rfl, hr.act, hr.prev, hr.file, rfl, hr.files.id_, hr.files.complete, rfl⟩
  all_goals exact .inl ⟨rfl, rfl⟩

/-- A refresh that fails before there is a file. -/
theorem failed_none {env : Env} {E A : List Event} {n id : Nat} {w : Db} {db : Dur.Db}
    (h : MapRel env E A n w.map w.phase w.disk db.slots) (hl : Limits env E) (hid : id < 2147483648)
    (hnf : w.phase (partOf env.iv id) ≠ .failed) :
    ∃ w', fail w id none = .ok w' ∧ Stepped env E A n w w' db.slots := by
  have hd : (Dur.onPart db (partOf env.iv id) fun x fs => if x.phase = .begun then some (x, fs) else none).slots = db.slots := by
    unfold Dur.onPart
    dsimp only
    cases hp : (db.slots (partOf env.iv id)).part with
    | none => rfl
    | some x =>
      dsimp only
      by_cases hx : x.phase = .begun
      · rw [if_pos hx]
        funext q
        dsimp only
        rw [Dur.set_slots]
        split
        · rename_i hq
          rw [hq, ← hp]
        · rfl
      · rw [if_neg hx]
  unfold fail
  rw [← hd]
  refine onPart_rel h hl hid (Nat.le_refl _) ?_
  intro s y hs hf hy hr
  rw [← hs] at hnf
  have hph := hr.phase
  cases hw : w.phase s.min <;> cases hy2 : y.phase <;> rw [hw, hy2] at hph <;> first | exact hph.elim | exact absurd hw hnf | skip
  case begun.begun =>
    right
    refine ⟨s.val, .failed, w.disk s.min, y, (db.slots s.min).files, rfl, if_pos rfl, hr.act, hr.prev, hr.file, ?_, hr.files⟩
    rw [hy2]
    exact hph
  all_goals exact .inl ⟨rfl, if_neg nofun⟩

theorem complete_rel {env : Env} {E A : List Event} {n id : Nat} {w : Db} {db : Dur.Db}
    (h : MapRel env E A n w.map w.phase w.disk db.slots) (hl : Limits env E) (hid : id < 2147483648) :
    ∃ w', complete w id = .ok w' ∧ Stepped env E A n w w' (Dur.complete db (partOf env.iv id)).slots := by
  unfold complete Dur.complete
  refine onPart_rel h hl hid (Nat.le_refl _) ?_
  intro s y hs hf hy hr
  have hph := hr.phase
  cases hw : w.phase s.min <;> cases hy2 : y.phase <;> rw [hw, hy2] at hph <;> try exact hph.elim
  case applied.applied g =>
    right
    obtain ⟨f, f1, f2⟩ := hph
    refine ⟨s.val, .completed, { w.disk s.min with incomplete := none, complete := some f.file }, _, _, ?_, rfl, ?_⟩
    · dsimp only
      rw [f1]
    · exact ⟨hr.act, hr.prev, hr.file, ⟨rfl, f, rfl, f2⟩, hr.files.id_, ⟨f, rfl, f2⟩, rfl⟩
  all_goals exact .inl ⟨rfl, rfl⟩

theorem delete_rel {env : Env} {E A : List Event} {n id : Nat} {w : Db} {db : Dur.Db}
    (h : MapRel env E A n w.map w.phase w.disk db.slots) (hl : Limits env E) (hid : id < 2147483648) :
    ∃ w', delete w id = .ok w' ∧ Stepped env E A n w w' (Dur.delete db (partOf env.iv id)).slots := by
  unfold delete Dur.delete
  refine onPart_rel h hl hid (Nat.le_refl _) ?_
  intro s y hs hf hy hr
  have hph := hr.phase
  cases hw : w.phase s.min <;> cases hy2 : y.phase <;> rw [hw, hy2] at hph <;> try exact hph.elim
  case completed.completed g =>
    right
    exact ⟨_, _, _, _, _, rfl, rfl, hr.act, hr.prev, hr.file, hph, trivial, hr.files.complete, hr.files.incomplete⟩
  all_goals exact .inl ⟨rfl, rfl⟩

theorem finish_rel {env : Env} {E A : List Event} {n id : Nat} {w : Db} {db : Dur.Db}
    (h : MapRel env E A n w.map w.phase w.disk db.slots) (hl : Limits env E) (hid : id < 2147483648) :
    ∃ w', finish w id = .ok w' ∧ Stepped env E A n w w' (Dur.finish db (partOf env.iv id)).slots := by
  unfold finish Dur.finish
  refine onPart_rel h hl hid (Nat.le_refl _) ?_
  intro s y hs hf hy hr
  have hph := hr.phase
  cases hw : w.phase s.min <;> cases hy2 : y.phase <;> rw [hw, hy2] at hph <;> try exact hph.elim
  case deleted.deleted g =>
    right
    obtain ⟨f0, f, f1, f2⟩ := hph
    refine ⟨s.val, .idle, { w.disk s.min with complete := none, id_ := some f.file }, _, _, ?_, rfl, ?_⟩
    · dsimp only
      rw [f1]
    · exact ⟨hr.act, hr.prev, hr.file, f0, ⟨f, rfl, f2⟩, trivial, hr.files.incomplete⟩
  all_goals exact .inl ⟨rfl, rfl⟩

end Verif.Whole
