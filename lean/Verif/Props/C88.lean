import Mathlib.Data.List.Perm.Subperm
import Verif.Proofs.C88All
import Verif.Props.C11

/-!
C88: an application that reads with a cursor and changes or deletes the events it
is on gets every event once, and its changes stay.
-/
namespace Verif.C88
open Spec Cursor Io Sweep

/-- What the loop does, for all changes, while the tables that take the writes stay
on one page: it ends, reads every live event once and in order, but some of
the changes too, right after their event, and changes those again; the
partitions hold exactly what was written. -/
theorem C88_exact_partial (sp ss : Nat) (h1 : 0 < ss) (h2 : ss < sp) (cs : Codecs) (mc : MemCmp)
    (change : Event → Option Event) (ps : List CPart) (ct : List Content) (hown : Own change)
    (hh : AllOf (Held cs mc sp ss) ct ps) (hf : ∀ c ∈ ct, Room sp change c) :
    Repeats cs mc sp ss change ps ct := by
  obtain ⟨Ms, ps', a1, a2, a3⟩ := all_sweep h1 h2 hown ct ps hh hf
  obtain ⟨st, st', b1, b2, b3⟩ := a3 []
  obtain ⟨n, hn⟩ := sweep_of_arr b1 b2
  exact ⟨Ms, ps', a1, a2, n, fun fuel hfu => ⟨st', hn fuel hfu, by simpa using b3⟩⟩

/-- Without those the property holds: for tables of one page and for changes that
are deletes, or of events in the table that takes the writes, or of events
after all of those in it.  Missing from `Full`: other changes, for which it is
false (`C88_false`, `C88_again`), and tables of several pages, which go wrong
without a cursor already (C07). -/
theorem C88_sweep_partial (sp ss : Nat) (h1 : 0 < ss) (h2 : ss < sp) (cs : Codecs) (mc : MemCmp)
    (change : Event → Option Event) (ps : List CPart) (ct : List Content) (hown : Own change)
    (hh : AllOf (Held cs mc sp ss) ct ps) (hf : ∀ c ∈ ct, Fits sp change c) (hq : ∀ c ∈ ct, Quiet change c) :
    Sweeps cs mc sp ss change ps ct := by
  obtain ⟨Ms, ps', a1, a2, n, a3⟩ := C88_exact_partial sp ss h1 h2 cs mc change ps ct hown hh
    fun c hc M hM => by rw [writes_quiet (hq c hc) hM]; exact hf c hc M hM
  obtain ⟨q1, q2⟩ := all_quiet ct Ms hq a1
  rw [q2] at a2
  rw [q1] at a3
  exact ⟨Ms, ps', a1, a2, n, a3⟩

/-- And whenever there is another change it fails: an event that has one is read,
and its new version right after it. -/
theorem C88_again (sp ss : Nat) (h1 : 0 < ss) (h2 : ss < sp) (cs : Codecs) (mc : MemCmp)
    (change : Event → Option Event) (p : CPart) (c : Content) (hown : Own change) (hh : Held cs mc sp ss c p)
    (hf : Room sp change c) (e d : Event) (he : e.isDelete = false) (hc : c.current e = some e)
    (hd : change e = some d) (hdel : d.isDelete = false) (hno : ∀ a ∈ c.act, a.pair ≠ e.pair)
    (hlater : ∃ a ∈ c.act, evCmp e a < 0) :
    ∃ pre post st n, ∀ fuel ≥ n, sweep cs mc change fuel [p] = .ok (some (pre ++ e :: d :: post, st)) := by
  obtain ⟨Ms, ps', a1, _, n, a3⟩ := C88_exact_partial sp ss h1 h2 cs mc change [p] [c] hown ⟨hh, trivial⟩
    (by simpa using hf)
  match Ms, a1 with
  | [M], ⟨hM, _⟩ =>
    have hag : again change c.act e = some d := by
      unfold again
      rw [hd]
      dsimp only
      rw [if_neg (by simp [hdel]), if_neg, if_pos]
      · obtain ⟨a, ha, hlt⟩ := hlater
        exact List.any_eq_true.2 ⟨a, ha, by simpa using hlt⟩
      · intro hany
        obtain ⟨a, ha, hp⟩ := List.any_eq_true.1 hany
        exact hno a ha (by simpa using hp)
    obtain ⟨A, B, hAB⟩ := List.append_of_mem ((hM.2 e).2 ⟨he, hc⟩)
    obtain ⟨st, hst, _⟩ := a3 n (Nat.le_refl _)
    refine ⟨reads change c.act A, reads change c.act B, st, n, fun fuel hfu => ?_⟩
    obtain ⟨k, rfl⟩ : ∃ k, fuel = n + k := ⟨fuel - n, by omega⟩
    rw [sweep_more _ _ _ _ k _ _ hst]
    simp [hAB, reads, hag]

/-- The case of an application that only deletes: no condition on where the events
are. -/
theorem C88_delete_partial (sp ss : Nat) (h1 : 0 < ss) (h2 : ss < sp) (cs : Codecs) (mc : MemCmp)
    (change : Event → Option Event) (ps : List CPart) (ct : List Content) (hown : Own change)
    (hdel : ∀ e d, change e = some d → d.isDelete = true)
    (hh : AllOf (Held cs mc sp ss) ct ps) (hf : ∀ c ∈ ct, Fits sp change c) :
    Sweeps cs mc sp ss change ps ct :=
  C88_sweep_partial sp ss h1 h2 cs mc change ps ct hown hh hf fun _ _ e d _ _ hc => .inl (hdel e d hc)

/-! ### The change that is read again -/

/-- An event written before a refresh rotated the tables, and one after it. -/
def old : Event := ⟨1, 0, [], [7]⟩
def new : Event := ⟨2, 0, [], [7]⟩
def rotated : Content := ⟨[new], [old], none⟩
/-- The application counts: it adds one to the value. -/
def count (e : Event) : Option Event := some { e with value := e.value.map (· + 1) }

def table1 (e : Event) : Memtable :=
  match C07.run memCmpStd (Memtable.init 512 508) [e] with
  | .ok (m, _) => m
  | _ => Memtable.init 512 508
def rotatedPart : CPart := ⟨table1 new, table1 old, none⟩

theorem rotated_held : Held C11.plain memCmpStd 512 508 rotated rotatedPart := by
  refine ⟨⟨⟨_, rfl⟩, ⟨_, rfl⟩, trivial⟩, ?_, ?_, List.Pairwise.nil, ⟨0, ?_⟩, C11.short_tame _ (by decide), C11.short_tame _ (by decide)⟩
  · simp [rotated, Content.all, Content.stored, old, new, Io.WF]
  · simp [rotated, Content.all, Content.stored, old, new]
  · simp [rotated, Content.all, Content.stored, old, new, Within]

/-- Counting: the first event is read, changed, read again and changed again, the
second is read once. -/
theorem C88_twice : (match sweep C11.plain memCmpStd count 10 [rotatedPart] with
    | .ok (some (es, _)) => es == [old, ⟨1, 0, [], [8]⟩, new]
    | _ => false) = true := by decide +kernel

/-- And the partition then holds 9 for it. -/
theorem C88_counted : (match sweep C11.plain memCmpStd count 10 [rotatedPart] with
    | .ok (some (_, st)) =>
      (match sweep C11.plain memCmpStd (fun _ => none) 10 st.parts with
      | .ok (some (es, _)) => es == [⟨1, 0, [], [9]⟩, ⟨2, 0, [], [8]⟩]
      | _ => false)
    | _ => false) = true := by decide +kernel

theorem C88_false : ¬ Full 512 508 := by
  intro h
  obtain ⟨Ms, ps', h1, _, n, h3⟩ := h C11.plain memCmpStd count [rotatedPart] [rotated]
    (by intro e d he; cases he; rfl) ⟨rotated_held, trivial⟩
  match Ms, h1 with
  | [M], ⟨⟨_, hm⟩, _⟩ =>
    obtain ⟨st, h4, _⟩ := h3 (10 + n) (by omega)
    have h5 := C88_twice
    cases hs : sweep C11.plain memCmpStd count 10 [rotatedPart] with
    | ok y =>
      cases y with
      | none => rw [hs] at h5; cases h5
      | some y =>
        obtain ⟨es, st2⟩ := y
        rw [hs] at h5
        dsimp only at h5
        have h6 := sweep_more _ _ _ _ n _ _ hs
        rw [h4] at h6
        have he : es = [old, ⟨1, 0, [], [8]⟩, new] := by simpa using h5
        have hM : M = es := by
          have : [M].flatten = es := by injection h6 with h6; injection h6 with h6; injection h6
          simpa using this
        have h7 : (⟨1, 0, [], [8]⟩ : Event) ∈ M := by rw [hM, he]; simp
        have h8 := ((hm _).1 h7).2
        exact absurd h8 (by decide)
    | err s => rw [hs] at h5; cases h5
    | abort s => rw [hs] at h5; cases h5
    | ub s => rw [hs] at h5; cases h5

/-! ### Reading again after a delete -/

/-- The cursor on its first event; what monotone_read returns, and what it returns
after the event was deleted. -/
def readAgain (p : CPart) : Option (Option Event × Option Event) :=
  match Sweep.open_ C11.plain memCmpStd [p] with
  | .ok st =>
    match Sweep.read C11.plain memCmpStd st with
    | .ok (some e) =>
      match Sweep.write memCmpStd st ⟨e.id, 1, e.key, []⟩ with
      | .ok st' =>
        match Sweep.read C11.plain memCmpStd st' with
        | .ok r => some (some e, r)
        | _ => none
      | _ => none
    | _ => none
  | _ => none

/-- An event in the table that takes the writes is gone at once: monotone_read
returns 0, as at the end of the cursor; one in the other table is still shown. -/
theorem C88_read_again :
    (readAgain ⟨table1 old, Memtable.init 512 508, none⟩ == some (some old, none)) = true ∧
    (readAgain ⟨Memtable.init 512 508, table1 old, none⟩ == some (some old, some old)) = true := by
  constructor <;> decide +kernel

/-! ### The hypotheses are met -/

/-- Deletes the ids below 8, changes 8 and 120, leaves 150. -/
def some' (e : Event) : Option Event :=
  if e.id < 8 then some ⟨e.id, 1, e.key, []⟩
  else if e.id < 140 then some ⟨e.id, 0, e.key, [9, 9]⟩
  else none

theorem lives_short {c : Content} {M : List Event} (hM : Lives c M) :
    (C07.table c.act).length ≤ c.act.length ∧ M.length ≤ c.all.length := by
  have h1 : (C07.table c.act).length ≤ c.act.length := by
    have : ∀ l : List Event, (C07.table l).length ≤ l.length := by
      intro l
      induction l using C07.list_snoc_ind with
      | h0 => simp [C07.table]
      | hs l x ih => rw [C07.table_snoc]; have := put_length_le (C07.table l) x; simp; omega
    exact this _
  have h2 : M.Nodup := hM.1.imp fun {a b} hab he => by
    subst he; rw [evCmp_refl] at hab; omega
  have h3 : M ⊆ c.all := fun x hx => current_mem ((hM.2 x).1 hx).2
  exact ⟨h1, (h2.subperm h3).length_le⟩

theorem fits_short {change : Event → Option Event} {c : Content} (h : c.act.length + c.all.length ≤ 512) : Fits 512 change c := by
  intro M hM
  have h1 := lives_short hM
  have h5 := List.length_filterMap_le change M
  omega

theorem room_short {change : Event → Option Event} {c : Content} (h : c.act.length + 2 * c.all.length ≤ 512) :
    Room 512 change c := by
  intro M hM
  have h1 := lives_short hM
  have h5 : (writes change c.act M).length ≤ 2 * M.length := by
    unfold writes
    generalize c.act = act
    clear h hM h1
    induction M with
    | nil => simp
    | cons e M ih =>
      rw [List.flatMap_cons, List.length_append, List.length_append, List.length_cons]
      have : ∀ o : Option Event, o.toList.length ≤ 1 := fun o => by cases o <;> simp
      have h1 := this (change e)
      have h2 := this ((again change act e).bind change)
      omega
  omega

/-- The event of before the refresh and its count: all that `C88_exact_partial` and
`C88_again` ask for. -/
example : Own count ∧ AllOf (Held C11.plain memCmpStd 512 508) [rotated] [rotatedPart] ∧
    (∀ c ∈ [rotated], Room 512 count c) ∧ old.isDelete = false ∧ rotated.current old = some old ∧
    count old = some ⟨1, 0, [], [8]⟩ ∧ (∀ a ∈ rotated.act, a.pair ≠ old.pair) ∧
    ∃ a ∈ rotated.act, evCmp old a < 0 := by
  refine ⟨?_, ⟨rotated_held, trivial⟩, ?_, by decide, by decide, by decide, by decide, by decide⟩
  · intro e d he; cases he; rfl
  · intro c hc
    rw [List.mem_singleton] at hc; subst hc
    exact room_short (by decide)

/-- Two partitions, with tables and a file: four events are read, two are deleted
and two changed. -/
example : ∃ f m1 m2 m3, AllOf (Held C11.plain memCmpStd 512 508) [C11.first, C11.second]
      [⟨m1, m2, some f⟩, ⟨m3, Memtable.init 512 508, none⟩] ∧
    Own some' ∧ (∀ c ∈ [C11.first, C11.second], Fits 512 some' c ∧ Quiet some' c) ∧
    Sweeps C11.plain memCmpStd 512 508 some' [⟨m1, m2, some f⟩, ⟨m3, Memtable.init 512 508, none⟩] [C11.first, C11.second] := by
  obtain ⟨f, hf⟩ := C11.two_file
  have t : ∀ es : List Event, es.length ≤ 2 → (∀ e ∈ es, Within 0 e) →
      ∃ m ps, C07.run memCmpStd (Memtable.init 512 508) es = .ok (m, ps) := fun es hl hw => by
    obtain ⟨m, ps, h, _⟩ := C07.run_tame memCmpStd (by decide) (by decide) 0 es hw (C11.short_tame es (by omega))
    exact ⟨m, ps, h⟩
  obtain ⟨m1, p1, r1⟩ := t C11.first.act (by decide) (by simp [C11.first, Within])
  obtain ⟨m2, p2, r2⟩ := t C11.first.prev (by decide) (by simp [C11.first, Within])
  obtain ⟨m3, p3, r3⟩ := t C11.second.act (by decide) (by simp [C11.second, Within])
  have hh : AllOf (Held C11.plain memCmpStd 512 508) [C11.first, C11.second]
      [⟨m1, m2, some f⟩, ⟨m3, Memtable.init 512 508, none⟩] := by
    refine ⟨⟨⟨⟨p1, r1⟩, ⟨p2, r2⟩, hf⟩, ?_, ?_, ?_, ⟨0, ?_⟩, C11.short_tame _ (by decide), C11.short_tame _ (by decide)⟩,
      ⟨⟨⟨p3, r3⟩, ⟨[], rfl⟩, trivial⟩, ?_, ?_, List.Pairwise.nil, ⟨0, ?_⟩, C11.short_tame _ (by decide), C11.short_tame _ (by decide)⟩,
      trivial⟩
    · simp [C11.first, Content.all, Content.stored, C11.two, WF]
    · simp [C11.first, Content.all, Content.stored, C11.two]
    · simp [C11.first, Content.stored, C11.two, Ascending, evCmp, keyCmp, Event.pair]
    · simp [C11.first, Content.all, Content.stored, C11.two, Within]
    · simp [C11.second, Content.all, Content.stored, WF]
    · simp [C11.second, Content.all, Content.stored]
    · simp [C11.second, Content.all, Content.stored, Within]
  have hown : Own some' := by
    intro e d he
    unfold some' at he
    split at he
    · cases he; rfl
    · split at he
      · cases he; rfl
      · cases he
  have hfq : ∀ c ∈ [C11.first, C11.second], Fits 512 some' c ∧ Quiet some' c := by
    intro c hc
    simp only [List.mem_cons, List.not_mem_nil, or_false] at hc
    rcases hc with rfl | rfl
    · refine ⟨fits_short (by decide), fun e d h1 h2 h3 => ?_⟩
      by_cases h8 : e.id < 8
      · left
        unfold some' at h3; rw [if_pos h8] at h3; cases h3; rfl
      · right; right
        intro a ha
        simp only [C11.first, List.mem_cons, List.not_mem_nil, or_false] at ha
        subst ha
        have : (3 : Nat) < e.id := by omega
        unfold evCmp keyCmp
        rw [if_pos (by simpa [Event.pair] using this)]
        decide
    · refine ⟨fits_short (by decide), fun e d h1 h2 h3 => .inr (.inl ⟨e, ?_, rfl⟩)⟩
      have := current_mem h2
      simpa [Content.all, C11.second, Content.stored] using this
  exact ⟨f, m1, m2, m3, hh, hown, hfq, C88_sweep_partial 512 508 (by decide) (by decide) _ _ _ _ _ hown hh
    (fun c hc => (hfq c hc).1) fun c hc => (hfq c hc).2⟩

end Verif.C88
