import Verif.Proofs.IndexSeek
import Verif.Proofs.PartFile

/-! C17: file index lookup finds the right region. -/
namespace Verif.C17

open Verif.Io

/-- The lookup is right when the ids lie in one half of the id space and near the
request.  Missing for `Full`: see `C17_lookup_false`, `C17_far_above` and
`C17_other_half`. -/
theorem C17_lookup_partial (i : Index) (data : Bytes) (l : List IndexRegion) (id : Nat) (he : Entries i data l)
    (ha : Ascending l) (hid : id < 18446744073709551616) (hs : SameHalf l id) (hn : Near l id) :
    ∃ it, IndexIterator.open_ i data (some id) = .ok it ∧ Right l id it :=
  open_ok he ha hid hs hn

/-- With the right region, the first event at or after the request is in it or is
the first event after it. -/
theorem C17_first_event (l : List IndexRegion) (rs : List (List Event)) (id : Nat) (P : Event → Bool)
    (it : IndexIterator) (ha : Ascending l) (hd : Describe l rs) (hP : Request id P) (hr : Right l id it) :
    FoundNear rs P it.pos := by
  obtain ⟨hr1, hr2⟩ := hr
  obtain ⟨hd1, hd2⟩ := hd
  have hbefore : ∀ k r, k < it.pos → rs[k]? = some r → r.find? P = none := by
    intro k r hk hrk
    have hkl : k < l.length := by rw [hd1]; exact (List.getElem?_eq_some_iff.1 hrk).1
    have hg := List.getElem?_eq_getElem hkl
    have h1 := (hd2 k _ r hg hrk).2
    have h2 := (hr2 k _ hg).1 hk
    rw [List.find?_eq_none]
    intro x hx hp
    have := (hP x).2 hp
    have := (h1 x hx).2
    omega
  have htake : (rs.take it.pos).flatten.find? P = none := by
    rw [List.find?_eq_none]
    intro x hx hp
    obtain ⟨r, hr, hxr⟩ := List.mem_flatten.1 hx
    obtain ⟨k, hk, rfl⟩ := List.mem_iff_getElem.1 hr
    rw [List.length_take] at hk
    have := hbefore k rs[k] (by omega) (List.getElem?_eq_getElem (by omega))
    rw [List.find?_eq_none] at this
    rw [List.getElem_take] at hxr
    exact this x hxr hp
  unfold FoundNear
  cases hpos : rs[it.pos]? with
  | none =>
    dsimp only
    rw [List.getElem?_eq_none_iff] at hpos
    rwa [List.take_of_length_le hpos] at htake
  | some r =>
    dsimp only
    have hlen := (List.getElem?_eq_some_iff.1 hpos).1
    have hsplit : rs.flatten.find? P = (r ++ (rs.drop (it.pos + 1)).flatten).find? P := by
      conv => lhs; rw [← List.take_append_drop it.pos rs, List.flatten_append, List.find?_append, htake]
      rw [List.drop_eq_getElem_cons hlen, List.flatten_cons, (List.getElem?_eq_some_iff.1 hpos).2]
      rfl
    rw [hsplit, List.find?_append]
    cases hf : r.find? P with
    | some x => exact .inl rfl
    | none =>
      refine .inr ⟨rfl, ?_⟩
      -- every later event has a larger id
      have hpl : it.pos < l.length := by omega
      have hgp := List.getElem?_eq_getElem hpl
      have hmax : id ≤ l[it.pos].max := by
        have := hr2 it.pos _ hgp
        omega
      show (rs.drop (it.pos + 1)).flatten.find? P = _
      have hall : ∀ x ∈ (rs.drop (it.pos + 1)).flatten, P x = true := by
        intro x hx
        obtain ⟨r', hr', hxr⟩ := List.mem_flatten.1 hx
        obtain ⟨k, hk, rfl⟩ := List.mem_iff_getElem.1 hr'
        rw [List.length_drop] at hk
        rw [List.getElem_drop] at hxr
        have hkl : it.pos + 1 + k < l.length := by omega
        have hgk := List.getElem?_eq_getElem hkl
        have h1 := ((hd2 _ _ _ hgk (List.getElem?_eq_getElem (by omega))).2 x hxr).1
        have h2 := List.pairwise_iff_getElem.1 ha.2 it.pos (it.pos + 1 + k) hpl hkl (by omega)
        exact (hP x).1 (by omega)
      cases hh : (rs.drop (it.pos + 1)).flatten with
      | nil => rfl
      | cons y ys =>
        rw [hh] at hall
        rw [List.find?_cons_of_pos (hall y (by simp))]
        rfl

/-- An index of one region. -/
def one (min max : Nat) : IndexRegion := { offset := 0, crc := 0, min, max, size := 42, size_origin := 42, events := 2 }

theorem one_entries {min max : Nat} (h : min < 18446744073709551616) (h' : max < 18446744073709551616) :
    Entries { regions := 1 } (one min max).bytes [one min max] := by
  refine ⟨rfl, ?_⟩
  intro k r hk
  have hk0 : k = 0 := by
    have := (List.getElem?_eq_some_iff.1 hk).1
    simp at this; omega
  subst hk0
  simp only [List.getElem?_cons_zero, Option.some.injEq] at hk
  subst hk
  have := ir_at (r := one min max) (by unfold IRWF one; simp; omega) []
  rw [List.append_nil] at this
  unfold Index.get
  rw [if_neg (by decide)]
  simpa using this

/-- A region of the ids 0 and 2^31 is skipped by a lookup of id 0. -/
theorem C17_region_skipped : ∃ it, IndexIterator.open_ { regions := 1 } (one 0 2147483648).bytes (some 0) = .ok it ∧
    it.current = none := by
  refine ⟨⟨{ regions := 1 }, (one 0 2147483648).bytes, none, 1⟩, ?_, rfl⟩
  have he := one_entries (min := 0) (max := 2147483648) (by decide) (by decide)
  rw [open_step (r := one 0 2147483648) (d := 2147483648) (by decide) (search_done (by decide)) (he.2 0 _ rfl)
    (by decide)]
  rw [if_pos (by decide)]
  rfl

/-- A lookup of id 2^31 + 1 stops on a region that holds only id 0. -/
theorem C17_far_above : ∃ it, IndexIterator.open_ { regions := 1 } (one 0 0).bytes (some 2147483649) = .ok it ∧
    it.current = some (one 0 0) := by
  refine ⟨⟨{ regions := 1 }, (one 0 0).bytes, some (one 0 0), 0⟩, ?_, rfl⟩
  have he := one_entries (min := 0) (max := 0) (by decide) (by decide)
  rw [open_step (r := one 0 0) (d := -2147483649) (by decide) (search_done (by decide)) (he.2 0 _ rfl)
    (by decide)]
  rw [if_neg (by decide)]
  show (Index.get { regions := 1 } (one 0 0).bytes 0).bind _ = _
  rw [he.2 0 _ rfl]
  rfl

/-- Looking up an id of the other half of the id space overflows. -/
theorem C17_other_half :
    ∃ m, IndexIterator.open_ { regions := 1 } (one 0 0).bytes (some 9223372036854775808) = .ub m := by
  have he := one_entries (min := 0) (max := 0) (by decide) (by decide)
  unfold IndexIterator.open_
  rw [if_neg (by decide)]
  dsimp only
  rw [search_done (by decide), Res.bind_ok, he.2 _ _ rfl, Res.bind_ok]
  have hm : compareU64 (one 0 0).max 9223372036854775808 = .ub "compare_u64: signed overflow" := by decide
  exact ⟨_, by rw [hm]; rfl⟩

/-- The claim does not hold for all ids. -/
theorem C17_lookup_false : ¬ Full := by
  intro h
  obtain ⟨it, h1, h2, h3⟩ := h { regions := 1 } (one 0 2147483648).bytes [one 0 2147483648] 0
    (one_entries (by decide) (by decide)) ⟨by simp [one], by simp⟩ (by decide)
  obtain ⟨it', h4, h5⟩ := C17_region_skipped
  rw [h1] at h4
  have h4 := Res.ok.inj h4
  subst h4
  have := h3 0 _ rfl
  have hp : it.pos ≠ 0 := by
    intro h0
    rw [h5, h0] at h2
    simp at h2
  exact absurd (this.1 (by omega)) (Nat.not_lt_zero _)

example : ∃ l id, Ascending l ∧ SameHalf l id ∧ Near l id ∧ Entries { regions := 1 } (one 3 700).bytes l ∧
    l.length = 1 :=
  ⟨[one 3 700], 5, ⟨by simp [one], by simp⟩, .inl ⟨by decide, by simp [one]⟩,
    ⟨by simp [one], by simp [one]⟩, one_entries (by decide) (by decide), rfl⟩

example : ∃ l rs, Ascending l ∧ Describe l rs ∧ Request 4 (fun x => decide (4 ≤ x.id)) ∧ rs.length = 2 :=
  ⟨[one 3 5, one 6 9], [[⟨3, 0, [], []⟩, ⟨5, 0, [], []⟩], [⟨6, 0, [], []⟩, ⟨9, 0, [], []⟩]],
    ⟨by simp [one], by simp [one]⟩, ⟨rfl, by
      intro k ir r h1 h2
      match k with
      | 0 => simp at h1 h2; subst h1 h2; simp [Describes, one]
      | 1 => simp at h1 h2; subst h1 h2; simp [Describes, one]
      | k + 2 => simp at h1⟩, by intro x; simp; omega, rfl⟩

end Verif.C17
