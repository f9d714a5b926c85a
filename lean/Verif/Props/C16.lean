import Verif.Spec.C16
import Verif.Proofs.WriterSafe

/-! C16: file regions partition the key space by id. -/
namespace Verif.C16

open Verif.Io

theorem regionSize_eq {r : List EventMem} (h : C15.Roomy r) : rawSize r = regionSize r := by
  unfold rawSize regionSize dataOf
  induction r with
  | nil => simp
  | cons m ms ih =>
    have h1 := ih fun x hx => h x (by simp [hx])
    simp only [List.flatMap_cons, List.length_append, List.length_cons, List.map_cons, List.sum_cons] at h1 ⊢
    rw [evBytes_length (h m (by simp))]
    unfold event_size
    omega

theorem lastId_mem {ms : List EventMem} (h : ms ≠ []) : ∃ x ∈ ms, lastId ms = x.event.id := by
  obtain ⟨a, m, rfl⟩ := exists_last h
  exact ⟨m, by simp, lastId_snoc a m⟩

theorem le_last {ms : List EventMem} (hs : ms.Pairwise fun x y => x.event.id ≤ y.event.id) {x : EventMem}
    (hx : x ∈ ms) : x.event.id ≤ lastId ms := by
  obtain ⟨a, m, rfl⟩ := exists_last (List.ne_nil_of_mem hx)
  rw [lastId_snoc]
  rcases List.mem_append.1 hx with h | h
  · exact (List.pairwise_append.1 hs).2.2 x h m (by simp)
  · simp only [List.mem_singleton] at h; subst h; exact Nat.le_refl _

theorem first_le {ms : List EventMem} (hs : ms.Pairwise fun x y => x.event.id ≤ y.event.id) {x : EventMem}
    (hx : x ∈ ms) : firstId ms ≤ x.event.id := by
  cases ms with
  | nil => simp at hx
  | cons m ms =>
    rcases List.mem_cons.1 hx with h | h
    · subst h; exact Nat.le_refl _
    · exact (List.pairwise_cons.1 hs).1 x h

theorem ascending_of {lim : Nat} {rs : List (List EventMem)} {cur : List EventMem} (h : Divided lim rs cur)
    (hc : cur ≠ []) (hs : (rs ++ [cur]).flatten.Pairwise fun x y => x.event.id ≤ y.event.id) :
    (rs ++ [cur]).Pairwise fun r r' => ∀ x ∈ r, ∀ y ∈ r', x.event.id < y.event.id := by
  induction rs with
  | nil => simp
  | cons r rs ih =>
    obtain ⟨h1, _, _, h4, h5⟩ := h
    rw [List.cons_append, List.flatten_cons] at hs
    obtain ⟨s1, s2, s3⟩ := List.pairwise_append.1 hs
    rw [List.cons_append, List.pairwise_cons]
    refine ⟨fun r' hr' x hx y hy => ?_, ih h5 s2⟩
    have hxl := le_last s1 hx
    obtain ⟨l, hl, hlid⟩ := lastId_mem h1
    have hyf : y ∈ (rs ++ [cur]).flatten := List.mem_flatten.2 ⟨r', hr', hy⟩
    -- the first event after `r`
    have hfirst : ∃ f, f ∈ (rs ++ [cur]).flatten ∧ lastId r ≠ f.event.id ∧ f.event.id ≤ y.event.id := by
      cases rs with
      | nil =>
        obtain ⟨hc, hne⟩ := h4
        cases cur with
        | nil => exact absurd rfl hc
        | cons f cur =>
          refine ⟨f, by simp, hne, ?_⟩
          have := first_le s2 hyf
          simpa [firstId] using this
      | cons r2 rs =>
        have hr2 : r2 ≠ [] := h5.1
        cases r2 with
        | nil => exact absurd rfl hr2
        | cons f r2 =>
          refine ⟨f, by simp, h4, ?_⟩
          have := first_le s2 hyf
          simpa [firstId] using this
    obtain ⟨f, hf, hne, hfy⟩ := hfirst
    have := s3 l hl f hf
    omega

theorem divided_mem {lim : Nat} {rs : List (List EventMem)} {cur : List EventMem} (h : Divided lim rs cur)
    (hc : cur ≠ []) : ∀ r ∈ rs ++ [cur], r ≠ [] ∧ Prompt lim r := by
  induction rs with
  | nil =>
    intro r hr
    simp only [List.nil_append, List.mem_singleton] at hr
    subst hr
    exact ⟨hc, h⟩
  | cons x rs ih =>
    obtain ⟨h1, _, h3, _, h5⟩ := h
    intro r hr
    rw [List.cons_append] at hr
    rcases List.mem_cons.1 hr with rfl | hr
    · exact ⟨h1, h3⟩
    · exact ih h5 r hr

theorem divided_full {lim : Nat} {rs : List (List EventMem)} {cur : List EventMem} (h : Divided lim rs cur) :
    ∀ r ∈ rs, lim ≤ rawSize r := by
  induction rs with
  | nil => simp
  | cons x rs ih =>
    obtain ⟨_, h2, _, _, h5⟩ := h
    intro r hr
    rcases List.mem_cons.1 hr with rfl | hr
    · exact h2
    · exact ih h5 r hr

/-- The rules hold for limits below 2^32.  Missing for `Full`: the limit is
compared in 32 bits, see `C16_rules_false`. -/
theorem C16_rules_partial (cs : Codecs) (s : WriterSource) (a : IndexWriter.StopArg) (ms : List EventMem) (w : Writer)
    (hs : ms.Pairwise fun x y => x.event.id ≤ y.event.id) (hwf : ∀ m ∈ ms, WF m.event) (ha : ArgWF s a)
    (hlim : 0 ≤ s.region_size) (hlim' : s.region_size < 4294967296) (hr : C15.Roomy ms)
    (h : writeFile cs s a ms = .ok w) (hl : w.file.length < 4294967296)
    (hg : C15.NoGrowth cs s ms w.index_writer.data) :
    ∃ rs p, rs.flatten = ms ∧ part_open cs w.file = .ok p ∧ Rules s.region_size rs ∧ Indexed p rs := by
  obtain ⟨es, p, h1, h2, h3, _, h5, _, _, _, _, hrep⟩ := written_open h hwf hl ha hg.1 hg.2
  have hflat : (es.map (·.ms)).flatten = ms := by rw [← h1, List.flatMap_def]
  have hL : ((limitOf s : Nat) : Int) = s.region_size := by unfold limitOf wrapU32; omega
  refine ⟨es.map (·.ms), p, hflat, h3, ?_, ?_⟩
  · rcases h2 with h2 | ⟨rs, cur, h2, hc, hd⟩
    · rw [h2]
      exact ⟨by simp, by simp, by simp, by simp⟩
    · rw [h2] at hflat ⊢
      have hroom : ∀ r ∈ rs ++ [cur], C15.Roomy r := fun r hr' m hm =>
        hr m (by rw [← hflat]; exact List.mem_flatten.2 ⟨r, hr', hm⟩)
      refine ⟨fun r hr' => (divided_mem hd hc r hr').1, ascending_of hd hc (by rw [hflat]; exact hs), ?_, ?_⟩
      · intro x r b he hb
        have hmem : r ∈ rs := by
          obtain ⟨b', y, rfl⟩ : ∃ b' y, b = b' ++ [y] := by
            rcases List.eq_nil_or_concat b with rfl | ⟨b', y, rfl⟩
            · exact absurd rfl hb
            · exact ⟨b', y, by simp⟩
          rw [← List.cons_append, ← List.append_assoc] at he
          have := (List.append_inj' he rfl).1
          rw [this]; simp
        have := divided_full hd r hmem
        rw [regionSize_eq (hroom r (by simp [hmem]))] at this
        omega
      · intro r hr' x y z b he hsz
        have hp := (divided_mem hd hc r hr').2
        have hrr : C15.Roomy (x ++ [y]) := fun m hm => hroom r hr' m (by
          rw [he]
          rcases List.mem_append.1 hm with hm | hm
          · simp [hm]
          · simp only [List.mem_singleton] at hm; subst hm; simp)
        have := hp (x ++ [y]) z b (by rw [he]; simp) (by simp) (by rw [regionSize_eq hrr]; omega)
        rwa [lastId_snoc] at this
  · refine ⟨by rw [h5, List.length_map], fun i r hi => ?_⟩
    have hi' : (es.map fun e => e.ms.map (·.event))[i]? = some (r.map (·.event)) := by
      rw [List.getElem?_map] at hi ⊢
      obtain ⟨e, he, rfl⟩ := Option.map_eq_some_iff.1 hi
      rw [he]; rfl
    obtain ⟨hne, ir, rg, g1, ⟨f, hf, hfid⟩, ⟨l, hl, hlid⟩, g4, _⟩ := hrep.region i _ hi'
    have hmem : r ∈ es.map (·.ms) := List.mem_of_getElem? hi
    have hsr : r.Pairwise fun x y => x.event.id ≤ y.event.id := by
      obtain ⟨A, B, hAB⟩ := List.append_of_mem hmem
      rw [← hflat, hAB] at hs
      simp only [List.flatten_append, List.flatten_cons] at hs
      exact (List.pairwise_append.1 (List.pairwise_append.1 hs).2.1).1
    obtain ⟨x, hx, rfl⟩ := List.mem_map.1 (List.mem_of_mem_head? hf)
    obtain ⟨y, hy, rfl⟩ := List.mem_map.1 (List.mem_of_getLast? hl)
    have hne' : r ≠ [] := by simpa using hne
    have hmin : ir.min = firstId r := by
      cases r with
      | nil => exact absurd rfl hne'
      | cons m r =>
        rw [hfid]
        simp only [List.map_cons, List.head?_cons, Option.some.injEq] at hf
        rw [← hf]; rfl
    have hmax : ir.max = lastId r := by
      obtain ⟨A, m, rfl⟩ := exists_last hne'
      rw [hlid, lastId_snoc]
      simp only [List.map_append, List.map_cons, List.map_nil, List.getLast?_concat, Option.some.injEq] at hl
      rw [← hl]
    refine ⟨ir, g1, ⟨x, hx, hfid⟩, ⟨y, hy, hlid⟩, fun z hz => ⟨?_, ?_⟩, by rw [g4, List.length_map]⟩
    · rw [hmin]; exact first_le hsr hz
    · rw [hmax]; exact le_last hsr hz

def cs : Codecs := ⟨fun _ => none, fun _ => none⟩
def arg : IndexWriter.StopArg :=
  { id_min := 0, id_max := 99, refreshes := 1, time_create := 0, time_refresh := 0, lsn := 7, compression := 0, encryption := 0 }
def two : List EventMem := [⟨⟨3, 0, [], []⟩, []⟩, ⟨⟨4, 0, [], []⟩, []⟩]
/-- A region size setting of 2^32 acts as 0. -/
def big : WriterSource := { region_size := 4294967296, crc := false, compression := 0, encryption := 0 }

/-- The claim does not hold for limits that need more than 32 bits: two small
events end up in two regions. -/
theorem C16_rules_false : ¬ Full := by
  intro h
  obtain ⟨w, hw⟩ := write_safe (cs := cs) (s := big) arg (ms := two) (by intro e he; simp [big] at he)
    (by simp [two, WF]) (by decide) (by decide)
  have hcheck : (match writeFile cs big arg two with
      | .ok w => w.file.length == 318 && w.index_writer.index.regions == 2
      | _ => false) = true := by decide +kernel
  rw [hw] at hcheck
  simp only [Bool.and_eq_true, beq_iff_eq] at hcheck
  have hsorted : two.Pairwise fun x y => x.event.id ≤ y.event.id := by
    unfold two
    simp
  have hwf : ∀ m ∈ two, WF m.event := by simp [two, WF]
  have harg : ArgWF big arg := by simp [ArgWF, arg, big]
  have hng : C15.NoGrowth cs big two w.index_writer.data := ⟨fun _ _ _ => trivial, trivial⟩
  obtain ⟨rs, p, h1, h2, h3, h4, _⟩ := h cs big arg two w hsorted hwf harg (by decide) (by simp [two, C15.Roomy]) hw
    (by rw [hcheck.1]; decide) hng
  obtain ⟨es, p', _, _, g3, _, g5, g6, _⟩ := written_open hw hwf (by rw [hcheck.1]; decide) harg hng.1 hng.2
  rw [h2] at g3
  have g3 := Res.ok.inj g3
  subst g3
  rw [g6, hcheck.2] at h4
  match rs, h4, h3, h1 with
  | [r1, r2], _, h3, h1 =>
    have n1 := h3.nonempty r1 (by simp)
    have n2 := h3.nonempty r2 (by simp)
    have hf := h3.full [] r1 [r2] rfl (by simp)
    simp only [List.flatten_cons, List.flatten_nil, List.append_nil] at h1
    match r1, r2, n1, n2, h1, hf with
    | [x], _ :: _, _, _, h1, hf =>
      unfold two at h1
      simp only [List.cons_append, List.nil_append, List.cons.injEq] at h1
      rw [h1.1] at hf
      exact absurd hf (by decide)
    | x :: y :: l, z :: l', _, _, h1, _ =>
      have := congrArg List.length h1
      simp [two] at this

example : (∀ m ∈ two, WF m.event) ∧ two.Pairwise (fun x y => x.event.id ≤ y.event.id) ∧
    ArgWF { big with region_size := 40 } arg ∧ C15.Roomy two ∧
    ∃ w, writeFile cs { big with region_size := 40 } arg two = .ok w :=
  ⟨by simp [two, WF], by unfold two; simp, by simp [ArgWF, arg, big], by simp [two, C15.Roomy],
    write_safe _ (by intro e he; simp [big] at he) (by simp [two, WF]) (by decide) (by decide)⟩

/-- That file is small and has two regions. -/
example : (match writeFile cs { big with region_size := 40 } arg two with
    | .ok w => w.file.length == 318 && w.index_writer.index.regions == 2
    | _ => false) = true := by decide +kernel

end Verif.C16
