import Verif.Spec.C07
import Verif.Proofs.MemtableOps

namespace Verif.C07
open Spec Memtable Rb

theorem lookup_eq_some {L : List Event} (h : Ascending L) {e x : Event} (hx : x ∈ L)
    (he : evCmp x e = 0) : lookup e L = some x := by
  rcases ascending_split h e with ⟨A, B, hAB, hA, hB⟩ | ⟨A, y, B, hAB, hA, hy, hB⟩
  · exfalso
    rw [hAB] at hx; simp at hx
    rcases hx with hx | hx
    · have := hA x hx; omega
    · have := hB x hx; omega
  · rw [hAB, lookup_replace hA hy]
    rw [hAB] at hx; simp at hx
    rcases hx with hx | hx | hx
    · have := hA x hx; omega
    · rw [hx]
    · have := hB x hx; omega

theorem lookup_some_mem {L : List Event} {e x : Event} (h : lookup e L = some x) :
    x ∈ L ∧ evCmp x e = 0 := by
  have h1 := List.mem_of_find?_eq_some h
  have h2 := List.find?_some h
  exact ⟨h1, by simpa using h2⟩

theorem lastOf_snoc (k e : Event) (es : List Event) :
    lastOf k (es ++ [e]) = if evCmp e k = 0 then some e else lastOf k es := by
  simp only [lastOf, List.reverse_append, List.reverse_cons, List.reverse_nil, List.nil_append,
    List.singleton_append, List.find?_cons]
  by_cases h : evCmp e k = 0
  · simp [h]
  · have : (evCmp e k == 0) = false := by simpa using h
    simp [h, this]

theorem table_snoc (es : List Event) (e : Event) : table (es ++ [e]) = put e (table es) := by
  simp [table]

theorem table_ascending (es : List Event) : Ascending (table es) := by
  suffices ∀ L, Ascending L → Ascending (es.foldl (fun L e => put e L) L) from
    this [] (by simp [Ascending])
  induction es with
  | nil => intro L h; exact h
  | cons e es ih => intro L h; exact ih _ (put_ascending h e)

theorem put_length_ge {L : List Event} (h : Ascending L) (e : Event) : L.length ≤ (put e L).length := by
  rcases ascending_split h e with ⟨A, B, hAB, hA, hB⟩ | ⟨A, y, B, hAB, hA, hy, hB⟩
  · rw [hAB, put_insert hA hB]; simp
  · rw [hAB, put_replace hA hy hB]; simp

theorem list_snoc_ind {α : Type} {P : List α → Prop} (h0 : P [])
    (hs : ∀ es e, P es → P (es ++ [e])) (es : List α) : P es := by
  rw [← List.reverse_reverse es]
  induction es.reverse with
  | nil => exact h0
  | cons e l ih => rw [List.reverse_cons]; exact hs _ _ ih

theorem lookup_table (k : Event) (es : List Event) : lookup k (table es) = lastOf k es := by
  induction es using list_snoc_ind with
  | h0 => rfl
  | hs es e ih =>
    rw [table_snoc, lastOf_snoc]
    by_cases h : evCmp e k = 0
    · rw [if_pos h]
      exact lookup_eq_some (put_ascending (table_ascending es) e) (mem_put.2 (.inl rfl)) h
    · rw [if_neg h, ← ih]
      cases hl : lookup k (table es) with
      | none =>
        cases hp : lookup k (put e (table es)) with
        | none => rfl
        | some y =>
          obtain ⟨h1, h2⟩ := lookup_some_mem hp
          rcases mem_put.1 h1 with rfl | ⟨h3, _⟩
          · exact absurd h2 h
          · rw [lookup_eq_some (table_ascending es) h3 h2] at hl; simp at hl
      | some x =>
        obtain ⟨h1, h2⟩ := lookup_some_mem hl
        apply lookup_eq_some (put_ascending (table_ascending es) e) _ h2
        apply mem_put.2
        refine .inr ⟨h1, ?_⟩
        intro hc
        apply h
        have h3 : evCmp e x = 0 := by have := evCmp_swap x e; omega
        have h4 := evCmp_congr (c := k) h3
        rw [h4]; exact h2

theorem mem_table (e : Event) (es : List Event) : lastOf e es = some e ↔ e ∈ table es := by
  rw [← lookup_table]
  constructor
  · intro h; exact (lookup_some_mem h).1
  · intro h; exact lookup_eq_some (table_ascending es) h (evCmp_refl e)

theorem run_snoc (mc : MemCmp) (es : List Event) (e : Event) (m : Memtable) :
    run mc m (es ++ [e]) = (run mc m es).bind fun (m', ps) =>
      (Memtable.set mc true m' e).bind fun (m'', p) => .ok (m'', ps ++ [p]) := by
  induction es generalizing m with
  | nil =>
    simp only [List.nil_append, run, Res.bind_ok]
  | cons a es ih =>
    simp only [List.cons_append, run]
    cases h : Memtable.set mc true m a with
    | ok r =>
      obtain ⟨m1, p1⟩ := r
      simp only [Res.bind_ok, ih]
      cases h2 : run mc m1 es with
      | ok r2 =>
        obtain ⟨m2, p2⟩ := r2
        simp only [Res.bind_ok]
        cases h3 : Memtable.set mc true m2 e with
        | ok r3 => rfl
        | err s => rfl
        | abort s => rfl
        | ub s => rfl
      | err s => rfl
      | abort s => rfl
      | ub s => rfl
    | err s => rfl
    | abort s => rfl
    | ub s => rfl

/-- State after tame writes. -/
structure Reach (sp ss base : Nat) (es : List Event) (m : Memtable) : Prop where
  inv : Inv base m (table es)
  iters : m.iters = []
  hsp : m.sizePage = sp
  hss : m.sizeSplit = ss
  last : LastFull m
  single : m.countPages ≤ 1 ∨ (table es).length > sp

theorem Reach.routed {sp ss base : Nat} {es : List Event} {m : Memtable}
    (h : Reach sp ss base es m) {k : Event}
    (hk : (table es).length ≤ sp ∨
      ((table es).filter (fun a => evCmp a k > 0)).length < sp - ss) : Routed m k := by
  rcases hk with hk | hk
  · rcases h.single with h1 | h1
    · exact .inl h1
    · omega
  · exact routed_of_few h.inv h.last (by rw [h.hsp, h.hss]; exact hk)

theorem run_tame (mc : MemCmp) {sp ss : Nat} (h1 : 0 < ss) (h2 : ss < sp) (base : Nat)
    (es : List Event) (hw : ∀ e ∈ es, Within base e) (ht : Tame sp ss es) :
    ∃ m prevs, run mc (Memtable.init sp ss) es = .ok (m, prevs) ∧ Reach sp ss base es m ∧
      prevs.length = es.length ∧
      (∀ pre e post, es = pre ++ e :: post → prevs[pre.length]? = some (lastOf e pre)) := by
  induction es using list_snoc_ind with
  | h0 =>
    refine ⟨_, [], rfl, ⟨inv_init base h1 h2, rfl, rfl, rfl, lastFull_init _ _, .inl (by simp [init])⟩, rfl, ?_⟩
    intro pre e post h; simp at h
  | hs es e ih =>
    obtain ⟨m, ps, hr, hreach, hlen, hps⟩ := ih (fun a ha => hw a (by simp [ha])) (by
      intro pre x post hx
      exact ht pre x (post ++ [e]) (by rw [hx]; simp))
    have hrt : Routed m e := by
      apply hreach.routed
      rcases ht es e [] rfl with h | h
      · left
        rw [table_snoc] at h
        have := put_length_ge (table_ascending es) e
        omega
      · exact .inr h
    obtain ⟨m', hset, hinv, hsame, hlast, hcp⟩ :=
      set_spec mc hreach.inv hreach.iters (hw e (by simp)) hrt
    refine ⟨m', ps ++ [lookup e (table es)], ?_, ?_, ?_, ?_⟩
    · rw [run_snoc, hr]; simp only [Res.bind_ok, hset]
    · refine ⟨by rw [table_snoc]; exact hinv, hsame.2.2.2.2, by rw [hsame.1]; exact hreach.hsp,
        by rw [hsame.2.1]; exact hreach.hss, hlast hreach.last, ?_⟩
      rw [table_snoc]
      have hge := put_length_ge (table_ascending es) e
      have hsp := hreach.hsp
      rcases hcp with h | h | h
      · exact .inl h
      · rcases hreach.single with h' | h'
        · omega
        · right; omega
      · right; omega
    · simp [hlen]
    · intro pre x post hx
      rcases List.eq_nil_or_concat post with hn | ⟨zs, z, hz⟩
      · subst hn
        obtain ⟨rfl, hxe⟩ := List.append_inj' hx rfl
        simp at hxe
        subst hxe
        rw [← hlen, lookup_table]; simp
      · have hz : post = zs ++ [z] := by rw [hz]; simp
        rw [hz] at hx
        have hx' : es ++ [e] = (pre ++ x :: zs) ++ [z] := by rw [hx]; simp
        obtain ⟨he, _⟩ := List.append_inj' hx' rfl
        have := hps pre x zs he
        have hlt : pre.length < ps.length := by rw [hlen, he]; simp
        rw [List.getElem?_append_left hlt]; exact this

/-- Appending on one page. -/
theorem set_append_single (mc : MemCmp) {base : Nat} (m : Memtable) (L : List Event)
    (e : Event) (hL : L ≠ []) (hlen : L.length < m.sizePage) (hit : m.iters = [])
    (hcp : m.countPages = 1) {pid : Nat}
    (ht : m.tree = .node .black .nil ⟨pid, L⟩ .nil) (hw : ∀ a ∈ L, Within base a) (he : Within base e)
    (hlt : ∀ a ∈ L, evCmp a e < 0) :
    Memtable.set mc true m e =
      .ok ({ m with tree := .node .black .nil ⟨pid, L ++ [e]⟩ .nil, count := m.count + 1 }, none) := by
  obtain ⟨ini, last, hl⟩ : ∃ ini last, L = ini ++ [last] :=
    ⟨_, _, (List.dropLast_concat_getLast hL).symm⟩
  have hlast : L.getLast? = some last := by rw [hl]; simp
  have hc : compare mc last e < 0 := by
    have hm : last ∈ L := by rw [hl]; simp
    obtain ⟨c1, c2, c3⟩ := compare_within mc (hw last hm) he
    have := hlt last hm
    omega
  have hs : Memtable.search mc ⟨pid, L⟩ e = .ok (L.length, false) := by
    simp [Memtable.search, hlast, hc]
  have hne : ¬ L.length = m.sizePage := by omega
  have hidx : L.insertIdx L.length e = L ++ [e] := by
    have := insertIdx_append L [] e
    simpa using this
  obtain ⟨t, sp, ss, cp, c, l1, l2, its, np⟩ := m
  simp only at *
  subst hit hcp ht
  simp only [Memtable.set, Memtable.searchPage, Memtable.insert, Rb.min, descendLeft, hs, hne,
    hidx, Memtable.syncAll, Res.bind_ok]
  have : ¬ L.length ≥ sp := by omega
  simp [Loc.tree, zip, hs, hne, this, hidx, Memtable.syncAll]

end Verif.C07
