import Verif.Proofs.WholeMap
import Verif.Proofs.C11
import Verif.Proofs.DurRun

/-! Helper lemmas: memory tables of the whole database. -/
namespace Verif.Whole
open Spec Io
open Dur (partOf tget tset Key)

theorem nodup_len {α : Type} : ∀ (l' l : List α), l'.Nodup → (∀ x ∈ l', x ∈ l) → l'.length ≤ l.length := by
  intro l'
  induction l' with
  | nil => intro l _ _; exact Nat.zero_le _
  | cons x l' ih =>
    intro l hn hs
    obtain ⟨l1, l2, rfl⟩ := List.append_of_mem (hs x (by simp))
    rw [List.nodup_cons] at hn
    have := ih (l1 ++ l2) hn.2 (by
      intro y hy
      have h1 := hs y (by simp [hy])
      simp only [List.mem_append, List.mem_cons] at h1 ⊢
      rcases h1 with h1 | rfl | h1
      · exact .inl h1
      · exact absurd hy hn.1
      · exact .inr h1)
    simp only [List.length_append, List.length_cons] at this ⊢
    omega

theorem pairs_nodup {L : List Event} (h : Ascending L) : (L.map (·.pair)).Nodup := by
  unfold List.Nodup
  rw [List.pairwise_map]
  refine h.imp fun {a b} h e => ?_
  have := evCmp_eq.2 e
  omega

theorem len_le {T' T : List Event} (h : Ascending T') (hs : ∀ x ∈ T', ∃ y ∈ T, y.pair = x.pair) : T'.length ≤ T.length := by
  have := nodup_len (T'.map (·.pair)) (T.map (·.pair)) (pairs_nodup h) (by
    intro p hp
    obtain ⟨x, hx, rfl⟩ := List.mem_map.1 hp
    obtain ⟨y, hy, e⟩ := hs x hx
    exact List.mem_map.2 ⟨y, hy, e⟩)
  simpa using this

theorem table_has {L : List Event} {x : Event} (h : x ∈ L) : ∃ y ∈ C07.table L, y.pair = x.pair := by
  cases hl : lookup x (C07.table L) with
  | some y =>
    have := C07.lookup_some_mem hl
    exact ⟨y, this.1, evCmp_eq.1 this.2⟩
  | none =>
    rw [C07.lookup_table] at hl
    unfold C07.lastOf at hl
    rw [List.find?_eq_none] at hl
    have := hl x (by simpa using h)
    rw [evCmp_eq.2 rfl] at this
    exact absurd rfl this

theorem tame_sub {sp ss : Nat} {l l' : List Event} (h : C07.Tame sp ss l) (hs : l'.Sublist l) : C07.Tame sp ss l' := by
  intro pre e post hl
  rw [hl] at hs
  obtain ⟨l1, l2, rfl, h1, h2⟩ := List.append_sublist_iff.1 hs
  obtain ⟨r1, r2, rfl, h3, h4⟩ := List.cons_sublist_iff.1 h2
  obtain ⟨s, t, rfl⟩ := List.append_of_mem h3
  have hsub : ∀ x ∈ pre, x ∈ l1 ++ s := fun x hx => List.mem_append_left _ (h1.subset hx)
  have htab : ∀ x ∈ C07.table pre, ∃ y ∈ C07.table (l1 ++ s), y.pair = x.pair :=
    fun x hx => table_has (hsub x (Cursor.mem_table hx))
  rcases h (l1 ++ s) e (t ++ r2) (by simp) with h5 | h5
  · left
    refine Nat.le_trans (len_le (C07.table_ascending _) ?_) h5
    intro x hx
    refine table_has ?_
    have := Cursor.mem_table hx
    simp only [List.mem_append, List.mem_singleton] at this ⊢
    rcases this with this | this
    · exact .inl (by simpa using hsub x this)
    · exact .inr this
  · right
    refine Nat.lt_of_le_of_lt (len_le ((C07.table_ascending _).filter _) ?_) h5
    intro x hx
    obtain ⟨hx1, hx2⟩ := List.mem_filter.1 hx
    obtain ⟨y, hy, hyx⟩ := htab x hx1
    refine ⟨y, List.mem_filter.2 ⟨hy, ?_⟩, hyx⟩
    have h7 : evCmp x e > 0 := by simpa using hx2
    have : evCmp y e = evCmp x e := by unfold evCmp; rw [hyx]
    simpa [this] using h7

theorem lastOf_eq (es : List Event) (k : Event) : C07.lastOf k es = Dur.lastOf es k.pair := by
  induction es using C07.list_snoc_ind with
  | h0 => rfl
  | hs es e ih =>
    rw [C07.lastOf_snoc, Dur.lastOf_append, ih]
    unfold Dur.lastOf
    by_cases h : e.pair = k.pair
    · have := evCmp_eq.2 h
      simp [this, h]
    · have : evCmp e k ≠ 0 := fun h' => h (evCmp_eq.1 h')
      simp [this, h]

/-- Two ways to see a memory table. -/
def MemRel (iv p : Nat) (A : List Event) (m : Memtable) (a : Dur.Mem) : Prop :=
  ∃ es, C07.Reach 512 508 p es m ∧ (∀ k : Key, tget a.tbl k = Dur.lastOf es k) ∧ m.lsnMin = a.lsnMin ∧
    m.lsnMax = a.lsnMax ∧ es.Sublist (A.filter fun e => partOf iv e.id == p)

theorem MemRel.mono {iv p : Nat} {A B : List Event} {m : Memtable} {a : Dur.Mem} (h : MemRel iv p A m a)
    (hs : A.Sublist B) : MemRel iv p B m a := by
  obtain ⟨es, h1, h2, h3, h4, h5⟩ := h
  exact ⟨es, h1, h2, h3, h4, h5.trans (hs.filter _)⟩

theorem memRel_init (iv p : Nat) (A : List Event) : MemRel iv p A (Memtable.init 512 508) {} := by
  refine ⟨[], ⟨Memtable.inv_init p (by decide) (by decide), rfl, rfl, rfl, Memtable.lastFull_init _ _, .inl (by decide)⟩,
    fun k => rfl, rfl, rfl, by simp⟩

theorem MemRel.follow {iv p : Nat} {A : List Event} {m : Memtable} {a : Dur.Mem} (h : MemRel iv p A m a) (l : Nat) :
    MemRel iv p A (m.follow l) (a.follow l) := by
  obtain ⟨es, h1, h2, h3, h4, h5⟩ := h
  refine ⟨es, ?_, h2, ?_, ?_, h5⟩
  · exact ⟨⟨h1.inv.valid, h1.inv.page, h1.inv.pids, h1.inv.list, h1.inv.asc, h1.inv.within, h1.inv.cntp, h1.inv.cnt, h1.inv.cfg⟩, h1.iters, h1.hsp, h1.hss, h1.last, h1.single⟩
  · show (if l < m.lsnMin then l else m.lsnMin) = _
    rw [h3]; rfl
  · show (if l > m.lsnMax then l else m.lsnMax) = _
    rw [h4]; rfl

/-- A write. -/
theorem MemRel.set {iv p : Nat} {A : List Event} {m : Memtable} {a : Dur.Mem} (h : MemRel iv p A m a) (mc : MemCmp)
    {e : Event} (hp : partOf iv e.id = p) (hi : 0 < iv) (hiv : iv < 2147483648) (hk : e.key.length ≤ 255)
    (ht : C07.Tame 512 508 ((A ++ [e]).filter fun e => partOf iv e.id == p)) :
    ∃ m', Memtable.set mc true m e = .ok (m', tget a.tbl e.pair) ∧ MemRel iv p (A ++ [e]) m' { a with tbl := tset a.tbl e } := by
  obtain ⟨es, h1, h2, h3, h4, h5⟩ := h
  have hsub : (es ++ [e]).Sublist ((A ++ [e]).filter fun e => partOf iv e.id == p) := by
    rw [List.filter_append]
    refine h5.append ?_
    simp [hp]
  have ht := tame_sub ht hsub
  have hrt : Memtable.Routed m e := by
    apply h1.routed
    rcases ht es e [] rfl with h | h
    · left
      rw [C07.table_snoc] at h
      have := C07.put_length_ge (C07.table_ascending es) e
      omega
    · exact .inr h
  have hin := partOf_in hi e.id
  obtain ⟨m', hset, hinv, hsame, hlast, hcp⟩ :=
    Memtable.set_spec mc h1.inv h1.iters (e := e) ⟨by omega, by omega, hk⟩ hrt
  refine ⟨m', ?_, es ++ [e], ?_, ?_, ?_, ?_, hsub⟩
  · rw [hset, h2, C07.lookup_table, lastOf_eq]
  · refine ⟨by rw [C07.table_snoc]; exact hinv, hsame.2.2.2.2, by rw [hsame.1]; exact h1.hsp,
      by rw [hsame.2.1]; exact h1.hss, hlast h1.last, ?_⟩
    rw [C07.table_snoc]
    have hge := C07.put_length_ge (C07.table_ascending es) e
    have hsp := h1.hsp
    rcases hcp with h | h | h
    · exact .inl h
    · rcases h1.single with h' | h'
      · omega
      · right; omega
    · right; omega
  · intro k
    show tget (tset a.tbl e) k = _
    rw [Dur.tget_tset, Dur.lastOf_append, h2]
    unfold Dur.lastOf
    by_cases h : e.pair = k <;> simp [h]
  · rw [hsame.2.2.1]; exact h3
  · rw [hsame.2.2.2.1]; exact h4

end Verif.Whole
