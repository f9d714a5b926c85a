import Verif.Spec.C48
import Verif.Proofs.C34
import Verif.Props.C45

namespace Verif.C48
open C34 Data Decode

/-! The uuid parser in terms of `UuidText`. -/

theorem fromString_legal {self u : Uuid} {s : List Nat} (hs : s.length = 36)
    (h : Uuid.fromString self s = some u) : C45.Legal u := by
  obtain ⟨A, c1, s1, rfl, hA, h1⟩ := C45.split_at 8 s (by omega)
  obtain ⟨B, c2, s2, rfl, hB, h2⟩ := C45.split_at 4 s1 (by omega)
  obtain ⟨C, c3, s3, rfl, hC, h3⟩ := C45.split_at 4 s2 (by omega)
  obtain ⟨D, c4, s4, rfl, hD, h4⟩ := C45.split_at 4 s3 (by omega)
  obtain ⟨E, F, rfl, hE⟩ : ∃ E F, s4 = E ++ F ∧ E.length = 4 :=
    ⟨s4.take 4, s4.drop 4, (List.take_append_drop 4 s4).symm, by simp; simp at *; omega⟩
  have hF : F.length = 8 := by simp at *; omega
  simp only [Uuid.fromString] at h
  rw [if_neg (by omega), List.take_of_length_le (by omega),
    C45.parse36 A B C D E F c1 c2 c3 c4 self.bits hA hB hC hD hE hF] at h
  cases hvA : C45.hexVal A 0 with
  | none => simp [hvA] at h
  | some a =>
  by_cases d1 : c1 = 45
  case neg => simp [hvA, d1] at h
  cases hvB : C45.hexVal B 0 with
  | none => simp [hvA, hvB] at h
  | some b =>
  by_cases d2 : c2 = 45
  case neg => simp [hvA, hvB, d2] at h
  cases hvC : C45.hexVal C 0 with
  | none => simp [hvA, hvB, hvC] at h
  | some c =>
  by_cases d3 : c3 = 45
  case neg => simp [hvA, hvB, hvC, d3] at h
  cases hvD : C45.hexVal D 0 with
  | none => simp [hvA, hvB, hvC, hvD] at h
  | some d =>
  by_cases d4 : c4 = 45
  case neg => simp [hvA, hvB, hvC, hvD, d4] at h
  cases hvE : C45.hexVal E 0 with
  | none => simp [hvA, hvB, hvC, hvD, hvE] at h
  | some e =>
  cases hvF : C45.hexVal F 0 with
  | none => simp [hvA, hvB, hvC, hvD, hvE, hvF] at h
  | some f =>
  rw [hvA, hvB, hvC, hvD, hvE, hvF] at h
  simp only [Option.bind_some] at h
  simp only [d1, d2, d3, d4, ne_eq, not_true, if_false, Option.some.injEq] at h
  rw [← h]
  simp only [C45.Legal, Uuid.ofBits]
  omega

theorem fromString_iff (self u : Uuid) (s : Bytes) :
    Uuid.fromString self (s.map (·.toNat)) = some u ↔ UuidText s u := by
  unfold UuidText
  by_cases hl : 36 ≤ s.length
  · have heq : Uuid.fromString self (s.map (·.toNat)) =
        Uuid.fromString self ((s.map (·.toNat)).take 36) := by
      simp only [Uuid.fromString, List.length_map, List.length_take, List.take_take]
      rw [if_neg (by omega), if_neg (by omega)]
      rfl
    rw [heq]
    have hlen : ((s.map (·.toNat)).take 36).length = 36 := by simp; omega
    constructor
    · intro h
      have hu := fromString_legal hlen h
      exact ⟨hu, hl, (C45.C45_uuid_text_partial _ (by omega) self u hu).1 h⟩
    · rintro ⟨hu, _, h⟩
      exact (C45.C45_uuid_text_partial _ (by omega) self u hu).2 h
  · constructor
    · intro h
      simp only [Uuid.fromString, List.length_map] at h
      rw [if_pos (by omega)] at h
      simp at h
    · intro h; omega

/-! One value -/

/-- The first byte of an encoding tells its type. -/
theorem head_of_encodes {v : Val} {bs : Bytes} (he : Encodes v bs) :
    ∃ t r, bs = t :: r ∧
      (data_is_string t.toNat = true ↔ ∃ s, v = .str s) ∧
      (data_is_integer t.toNat = true ↔ ∃ i, v = .int i) ∧
      (data_is_bool t.toNat = true ↔ ∃ b, v = .bool b) := by
  cases v with
  | null =>
    obtain rfl := he
    refine ⟨tag 0, [], rfl, ?_⟩
    rw [tag_toNat (by omega)]
    simp [data_is_string, data_is_integer, data_is_bool]
  | bool b =>
    obtain rfl := he
    cases b
    · refine ⟨tag 2, [], rfl, ?_⟩
      rw [tag_toNat (by omega)]
      simp [data_is_string, data_is_integer, data_is_bool]
    · refine ⟨tag 1, [], rfl, ?_⟩
      rw [tag_toNat (by omega)]
      simp [data_is_string, data_is_integer, data_is_bool]
  | int i =>
    obtain rfl := he
    obtain ⟨t, r, h1, h2, h3⟩ := write_integer_head (wrapU64 i)
    refine ⟨t, r, h1, ?_⟩
    simp [data_is_string, data_is_integer, data_is_bool]
    omega
  | real d =>
    obtain rfl := he
    obtain ⟨t, r, h1, h2⟩ := write_real_head d
    refine ⟨t, r, h1, ?_⟩
    simp [data_is_string, data_is_integer, data_is_bool]
    omega
  | str s =>
    obtain rfl := he
    obtain ⟨t, r, h1, h2, h3⟩ := writeCount_head 114 s.length (by omega)
    refine ⟨t, r ++ s, ?_, ?_⟩
    · have h4 : data_write_raw s = writeCount 114 147 148 149 s.length ++ s := rfl
      have h5 : writeCount 114 147 148 149 s.length = t :: r := h1
      rw [h4, h5]; rfl
    · simp [data_is_string, data_is_integer, data_is_bool]
      omega
  | arr l =>
    obtain ⟨hd, b, hh, _, rfl⟩ := he
    have hx : ∃ t r, hd = t :: r ∧ 42 ≤ t.toNat ∧ t.toNat ≤ 77 := by
      rcases hh with rfl | rfl
      · exact writeCount_head 42 l.len (by omega)
      · exact ⟨tag 77, _, rfl, by rw [tag_toNat] <;> omega, by rw [tag_toNat] <;> omega⟩
    obtain ⟨t, r, rfl, h2, h3⟩ := hx
    refine ⟨t, r ++ b, rfl, ?_⟩
    simp [data_is_string, data_is_integer, data_is_bool]
    omega
  | map l =>
    obtain ⟨hd, b, hh, _, rfl⟩ := he
    have hx : ∃ t r, hd = t :: r ∧ 78 ≤ t.toNat ∧ t.toNat ≤ 113 := by
      rcases hh with rfl | rfl
      · exact writeCount_head 78 l.len (by omega)
      · exact ⟨tag 113, _, rfl, by rw [tag_toNat] <;> omega, by rw [tag_toNat] <;> omega⟩
    obtain ⟨t, r, rfl, h2, h3⟩ := hx
    refine ⟨t, r ++ b, rfl, ?_⟩
    simp [data_is_string, data_is_integer, data_is_bool]
    omega

/-- The setter of a table entry changes exactly field `i`. -/
def TargetOK {α : Type} (view : α → List FV) (i : Nat) (ty : Ty) : Target α → Prop
  | .uuid _ set => ty = .uuid ∧ ∀ a u, view (set a u) = (view a).set i (.uuid u)
  | .string set => ty = .string ∧ ∀ a s, view (set a s) = (view a).set i (.string s)
  | .int set => ty = .int ∧ ∀ a s, view (set a s) = (view a).set i (.int s)
  | .bool set => ty = .bool ∧ ∀ a s, view (set a s) = (view a).set i (.bool s)
  | .real _ => False
  | .null => False

theorem readTarget_spec {α : Type} {view : α → List FV} {i : Nat} {ty : Ty} {t : Target α}
    (ht : TargetOK view i ty t) (a : α) {v : Val} {bs rest : Bytes} (hf : Fits (fun _ => True) v)
    (he : Encodes v bs) :
    (ty.Accepts v → ∃ a' fv, readTarget a (bs ++ rest) t = .ok (a', rest) ∧
      view a' = (view a).set i fv ∧ fv.Stands v) ∧
    (¬ ty.Accepts v → ∃ m, readTarget a (bs ++ rest) t = .err m) := by
  obtain ⟨t0, r0, hb, hs, hi, hbo⟩ := head_of_encodes he
  cases t with
  | uuid get set =>
    obtain ⟨rfl, hset⟩ := ht
    by_cases hv : ∃ s, v = .str s
    · obtain ⟨s, rfl⟩ := hv
      have hstr := hs.2 ⟨s, rfl⟩
      simp only [Encodes] at he
      simp only [Fits] at hf
      have hread : data_read_raw (bs ++ rest) = .ok (s, rest) := by
        rw [he]; exact read_raw rest (by omega)
      have hstep : readTarget a (bs ++ rest) (.uuid get set) =
          (match Uuid.fromString (get a) (s.map (·.toNat)) with
            | none => .err "uuid: failed to parse uuid"
            | some u => .ok (set a u, rest)) := by
        rw [hb] at hread ⊢
        simp only [List.cons_append, readTarget, hstr, not_true, if_false] at hread ⊢
        rw [hread]
        rfl
      rw [hstep]
      cases hu : Uuid.fromString (get a) (s.map (·.toNat)) with
      | none =>
        refine ⟨?_, fun _ => ⟨_, rfl⟩⟩
        rintro ⟨s', u, h1, h2⟩
        cases h1
        rw [(fromString_iff (get a) u s).2 h2] at hu
        simp at hu
      | some u =>
        have h2 := (fromString_iff (get a) u s).1 hu
        exact ⟨fun _ => ⟨_, _, rfl, hset a u, s, rfl, h2⟩, fun h => absurd ⟨s, u, rfl, h2⟩ h⟩
    · refine ⟨?_, fun _ => ?_⟩
      · rintro ⟨s, u, h1, _⟩; exact absurd ⟨s, h1⟩ hv
      · have hstr : data_is_string t0.toNat = false := by
          rw [← Bool.not_eq_true]; exact fun h => hv (hs.1 h)
        rw [hb]
        simp only [List.cons_append, readTarget, hstr]
        exact ⟨_, rfl⟩
  | string set =>
    obtain ⟨rfl, hset⟩ := ht
    by_cases hv : ∃ s, v = .str s
    · obtain ⟨s, rfl⟩ := hv
      have hstr := hs.2 ⟨s, rfl⟩
      simp only [Encodes] at he
      simp only [Fits] at hf
      have hread : data_read_raw (bs ++ rest) = .ok (s, rest) := by
        rw [he]; exact read_raw rest (by omega)
      refine ⟨fun _ => ⟨set a s, .string s, ?_, hset a s, rfl⟩, fun h => absurd ⟨s, rfl⟩ h⟩
      rw [hb] at hread ⊢
      simp only [List.cons_append, readTarget, hstr, not_true, if_false] at hread ⊢
      rw [hread]
      rfl
    · refine ⟨fun h => absurd h hv, fun _ => ?_⟩
      have hstr : data_is_string t0.toNat = false := by
        rw [← Bool.not_eq_true]; exact fun h => hv (hs.1 h)
      rw [hb]
      simp only [List.cons_append, readTarget, hstr]
      exact ⟨_, rfl⟩
  | int set =>
    obtain ⟨rfl, hset⟩ := ht
    by_cases hv : ∃ s, v = .int s
    · obtain ⟨s, rfl⟩ := hv
      have hstr := hi.2 ⟨s, rfl⟩
      simp only [Encodes] at he
      simp only [Fits] at hf
      have hread : data_read_integer (bs ++ rest) = .ok (s, rest) := by
        rw [he]; exact read_integer rest hf.1 hf.2
      refine ⟨fun _ => ⟨set a s, .int s, ?_, hset a s, rfl⟩, fun h => absurd ⟨s, rfl⟩ h⟩
      rw [hb] at hread ⊢
      simp only [List.cons_append, readTarget, hstr, not_true, if_false] at hread ⊢
      rw [hread]
      rfl
    · refine ⟨fun h => absurd h hv, fun _ => ?_⟩
      have hstr : data_is_integer t0.toNat = false := by
        rw [← Bool.not_eq_true]; exact fun h => hv (hi.1 h)
      rw [hb]
      simp only [List.cons_append, readTarget, hstr]
      exact ⟨_, rfl⟩
  | bool set =>
    obtain ⟨rfl, hset⟩ := ht
    by_cases hv : ∃ s, v = .bool s
    · obtain ⟨s, rfl⟩ := hv
      have hstr := hbo.2 ⟨s, rfl⟩
      simp only [Encodes] at he
      have hread : data_read_bool (bs ++ rest) = .ok (s, rest) := by
        rw [he]; exact read_bool s rest
      refine ⟨fun _ => ⟨set a s, .bool s, ?_, hset a s, rfl⟩, fun h => absurd ⟨s, rfl⟩ h⟩
      rw [hb] at hread ⊢
      simp only [List.cons_append, readTarget, hstr, not_true, if_false] at hread ⊢
      rw [hread]
      rfl
    · refine ⟨fun h => absurd h hv, fun _ => ?_⟩
      have hstr : data_is_bool t0.toNat = false := by
        rw [← Bool.not_eq_true]; exact fun h => hv (hbo.1 h)
      rw [hb]
      simp only [List.cons_append, readTarget, hstr]
      exact ⟨_, rfl⟩
  | real => exact ht.elim
  | null => exact ht.elim

/-! The loop -/

theorem maps_ind {P : Maps → Prop} (h0 : P .nil) (h1 : ∀ k v l, P l → P (.cons k v l)) : ∀ l, P l
  | .nil => h0
  | .cons k v l => h1 k v l (maps_ind h0 h1 l)


/-- A table agrees with the fields of a kind. -/
structure TableOK {α : Type} (K : Kind α) (table : List (Entry α)) : Prop where
  names : table.map (·.key) = K.fields.map (·.1)
  nodup : (K.fields.map (·.1)).Nodup
  targets : ∀ (i : Nat) (e : Entry α) (f : Bytes × Ty), table[i]? = some e → K.fields[i]? = some f →
    TargetOK K.view i f.2 e.target

theorem lookup_spec {α : Type} (key : Bytes) (t : List (Entry α)) (k : Nat) :
    (lookup key t k = none ∧ key ∉ t.map (·.key)) ∨
    (∃ i e, lookup key t k = some (k + i, e) ∧ t[i]? = some e ∧ e.key = key) := by
  induction t generalizing k with
  | nil => left; simp [lookup]
  | cons e es ih =>
    by_cases h : e.key = key
    · right; exact ⟨0, e, by simp [lookup, h], rfl, h⟩
    · rcases ih (k + 1) with ⟨h1, h2⟩ | ⟨i, e', h1, h2, h3⟩
      · left
        refine ⟨by simp [lookup, h, h1], ?_⟩
        simp only [List.map_cons, List.mem_cons, not_or]
        exact ⟨fun hk => h hk.symm, h2⟩
      · right
        refine ⟨i + 1, e', ?_, by simpa using h2, h3⟩
        simp only [lookup, h, if_false, h1]
        congr 2; omega

theorem name_idx {fields : List (Bytes × Ty)} (hn : (fields.map (·.1)).Nodup) {i j : Nat}
    {f g : Bytes × Ty} (hi : fields[i]? = some f) (hj : fields[j]? = some g) (h : f.1 = g.1) : i = j := by
  have h1 : (fields.map (·.1))[i]? = some f.1 := by simp [hi]
  have h2 : (fields.map (·.1))[j]? = some f.1 := by simp [hj, h]
  obtain ⟨hi', h1⟩ := List.getElem?_eq_some_iff.1 h1
  obtain ⟨hj', h2⟩ := List.getElem?_eq_some_iff.1 h2
  exact (List.getElem_inj hn).1 (h1.trans h2.symm)

section
variable {α : Type} {K : Kind α} {table : List (Entry α)}

/-- What the loop has achieved for field `i`. -/
def Done (K : Kind α) (l : Maps) (st st' : St α) : Prop :=
  ∀ (i : Nat) (name : Bytes) (ty : Ty), K.fields[i]? = some (name, ty) →
    match last name l with
    | some v => st'.found[i]? = some true ∧ ∃ fv, (K.view st'.obj)[i]? = some fv ∧ fv.Stands v
    | none => st'.found[i]? = st.found[i]? ∧ (K.view st'.obj)[i]? = (K.view st.obj)[i]?

theorem loop_spec (ht : TableOK K table) (l : Maps) :
    ∀ (st : St α) (bs rest : Bytes), FitsMap (fun _ => True) l → EncodesMap l bs →
      st.found.length = K.fields.length → (K.view st.obj).length = K.fields.length →
      (Typed K.fields l → ∃ st', loop table l.len st (bs ++ rest) = .ok (st', rest) ∧
        st'.found.length = K.fields.length ∧ (K.view st'.obj).length = K.fields.length ∧
        st'.log = st.log ++ unknown K.fields l ∧ Done K l st st') ∧
      (¬ Typed K.fields l → ∃ m, loop table l.len st (bs ++ rest) = .err m) := by
  induction l using maps_ind with
  | h0 =>
    intro st bs rest _ he h1 h2
    obtain rfl := he
    refine ⟨fun _ => ⟨st, rfl, h1, h2, by simp [unknown], ?_⟩, fun h => absurd trivial h⟩
    intro i name ty _
    simp [last]
  | h1 k v l ihl =>
    intro st bs rest hf he h1 h2
    obtain ⟨b1, b2, he1, he2, rfl⟩ := he
    obtain ⟨hk, hfv, hfl⟩ := hf
    have hkey : data_read_raw (data_write_raw k ++ (b1 ++ b2) ++ rest) = .ok (k, b1 ++ (b2 ++ rest)) := by
      rw [List.append_assoc, List.append_assoc]
      exact read_raw _ (by omega)
    have hlen : (Maps.cons k v l).len = l.len + 1 := rfl
    rcases lookup_spec k table 0 with ⟨hl, hnot⟩ | ⟨i, e, hl, hi, hek⟩
    · -- unknown key
      have hnot' : k ∉ K.fields.map (·.1) := by rw [← ht.names]; exact hnot
      have hstep : loop table (Maps.cons k v l).len st (data_write_raw k ++ (b1 ++ b2) ++ rest) =
          loop table l.len { st with log := st.log ++ [k] } (b2 ++ rest) := by
        rw [hlen, loop, hkey]
        simp only [Res.bind_ok, hl]
        rw [data_skip_enc v hfv b1 (b2 ++ rest) he1]
        rfl
      rw [hstep]
      have hacc : ∀ ty, (k, ty) ∈ K.fields → ty.Accepts v := fun ty h =>
        absurd (List.mem_map.2 ⟨(k, ty), h, rfl⟩) hnot'
      have ih := ihl { st with log := st.log ++ [k] } b2 rest hfl he2 h1 h2
      refine ⟨?_, ?_⟩
      · rintro ⟨_, hty⟩
        obtain ⟨st', g1, g2, g3, g4, g5⟩ := ih.1 hty
        refine ⟨st', g1, g2, g3, ?_, ?_⟩
        · rw [g4]; simp only [unknown, if_neg hnot']; simp
        · intro j name ty hj
          have h5 := g5 j name ty hj
          have hne : k ≠ name := by
            rintro rfl
            exact hnot' (List.mem_map.2 ⟨(k, ty), List.mem_of_getElem? hj, rfl⟩)
          simp only [last]
          cases hla : last name l with
          | some w => rw [hla] at h5; exact h5
          | none => rw [hla] at h5; simpa [hne] using h5
      · intro hnt
        exact ih.2 fun h => hnt ⟨hacc, h⟩
    · -- known key
      simp only [Nat.zero_add] at hl
      have hlt : i < K.fields.length := by
        have h3 := congrArg List.length ht.names
        simp only [List.length_map] at h3
        obtain ⟨h4, _⟩ := List.getElem?_eq_some_iff.1 hi
        omega
      obtain ⟨f, hfi⟩ : ∃ f, K.fields[i]? = some f := ⟨_, List.getElem?_eq_getElem hlt⟩
      have hfk : f.1 = k := by
        have h3 : (table.map (·.key))[i]? = some k := by simp [hi, hek]
        rw [ht.names] at h3
        simpa [hfi] using h3
      have hread := readTarget_spec (ht.targets i e f hi hfi) st.obj (rest := b2 ++ rest) hfv he1
      have hmem : k ∈ K.fields.map (·.1) :=
        List.mem_map.2 ⟨f, List.mem_of_getElem? hfi, hfk⟩
      have huniq : ∀ ty, (k, ty) ∈ K.fields → ty = f.2 := by
        intro ty hm
        obtain ⟨j, hj⟩ := List.getElem?_of_mem hm
        have : j = i := name_idx ht.nodup hj hfi (by simp [hfk])
        subst this
        rw [hfi] at hj
        cases hj; rfl
      by_cases hacc : f.2.Accepts v
      · obtain ⟨a', fv, hr1, hr2, hr3⟩ := hread.1 hacc
        have hstep : loop table (Maps.cons k v l).len st (data_write_raw k ++ (b1 ++ b2) ++ rest) =
            loop table l.len ⟨a', st.found.set i true, st.log⟩ (b2 ++ rest) := by
          rw [hlen, loop, hkey]
          simp only [Res.bind_ok, hl, hr1]
        rw [hstep]
        have ih := ihl ⟨a', st.found.set i true, st.log⟩ b2 rest hfl he2 (by simp [h1])
          (by simp [hr2, h2])
        refine ⟨?_, ?_⟩
        · rintro ⟨_, hty⟩
          obtain ⟨st', g1, g2, g3, g4, g5⟩ := ih.1 hty
          refine ⟨st', g1, g2, g3, ?_, ?_⟩
          · rw [g4]; simp only [unknown, if_pos hmem]
          · intro j name ty hj
            have h5 := g5 j name ty hj
            simp only [last]
            cases hla : last name l with
            | some w => rw [hla] at h5; exact h5
            | none =>
              rw [hla] at h5
              dsimp only at h5 ⊢
              by_cases hkn : k = name
              · have hij : j = i := name_idx ht.nodup hj hfi (by simp [hfk, hkn])
                subst hij
                simp only [hkn, if_true]
                refine ⟨?_, fv, ?_, hr3⟩
                · rw [h5.1]; simp [h1, hlt]
                · rw [h5.2, hr2]; simp [h2, hlt]
              · have hij : i ≠ j := by
                  rintro rfl
                  rw [hfi] at hj
                  cases hj
                  exact hkn hfk.symm
                simp only [hkn, if_false]
                refine ⟨?_, ?_⟩
                · rw [h5.1]; simp [hij]
                · rw [h5.2, hr2]; simp [hij]
        · intro hnt
          refine ih.2 fun h => hnt ⟨fun ty hm => ?_, h⟩
          rw [huniq ty hm]; exact hacc
      · obtain ⟨m, hm⟩ := hread.2 hacc
        refine ⟨?_, fun _ => ⟨m, ?_⟩⟩
        · rintro ⟨h3, _⟩
          exact absurd (h3 f.2 (by rw [← hfk]; exact List.mem_of_getElem? hfi)) hacc
        · rw [hlen, loop, hkey]
          simp only [Res.bind_ok, hl, hm]
          rfl

theorem decode_spec (ht : TableOK K table) (obj : α) (hv : (K.view obj).length = K.fields.length)
    (l : Maps) (bs rest : Bytes) (hf : Fits (fun _ => True) (.map l)) (he : Encodes (.map l) bs) :
    (Good K.fields l →
      ∃ a, decode_map table obj (bs ++ rest) = .ok (a, unknown K.fields l, rest) ∧
        (K.view a).length = K.fields.length ∧
        ∀ (i : Nat) (name : Bytes) (ty : Ty), K.fields[i]? = some (name, ty) →
          ∃ fv v, (K.view a)[i]? = some fv ∧ last name l = some v ∧ fv.Stands v) ∧
    (¬ Good K.fields l → ∃ m, decode_map table obj (bs ++ rest) = .err m) := by
  obtain ⟨hd, b, hh, hb, rfl⟩ := he
  have hmap : data_read_map (hd ++ b ++ rest) = .ok ((l.len : Int), b ++ rest) := by
    rw [List.append_assoc]
    rcases hh with rfl | rfl
    · exact read_map _ hf.1
    · exact read_map32 _ hf.1
  have htl : table.length = K.fields.length := by simpa using congrArg List.length ht.names
  have hs := loop_spec ht l ⟨obj, List.replicate table.length false, []⟩ b rest hf.2 hb
    (by simp [htl]) hv
  unfold decode_map
  rw [hmap]
  simp only [Res.bind_ok, Int.toNat_natCast]
  by_cases hty : Typed K.fields l
  · obtain ⟨st', g1, g2, g3, g4, g5⟩ := hs.1 hty
    rw [g1]
    simp only [Res.bind_ok]
    by_cases hall : ∀ name ty, (name, ty) ∈ K.fields → last name l ≠ none
    · have hnot : (st'.found.any fun f => !f) = false := by
        rw [List.any_eq_false]
        intro x hx
        obtain ⟨i, hi⟩ := List.getElem?_of_mem hx
        have hlt : i < K.fields.length := by
          obtain ⟨h4, _⟩ := List.getElem?_eq_some_iff.1 hi; omega
        obtain ⟨⟨name, ty⟩, hfi⟩ : ∃ f, K.fields[i]? = some f := ⟨_, List.getElem?_eq_getElem hlt⟩
        have h5 := g5 i _ _ hfi
        have h6 := hall _ _ (List.mem_of_getElem? hfi)
        cases hla : last name l with
        | none => exact absurd hla h6
        | some w =>
          rw [hla] at h5
          rw [h5.1] at hi
          simp at hi; simp [← hi]
      rw [hnot]
      refine ⟨fun _ => ⟨st'.obj, ?_, g3, ?_⟩, fun h => absurd ⟨hty, hall⟩ h⟩
      · simp [g4]
      · intro i name ty hi
        have h5 := g5 i name ty hi
        cases hla : last name l with
        | none => exact absurd hla (hall name ty (List.mem_of_getElem? hi))
        | some w =>
          rw [hla] at h5
          obtain ⟨_, fv, h7, h8⟩ := h5
          exact ⟨fv, w, h7, rfl, h8⟩
    · refine ⟨fun h => absurd h.2 hall, fun _ => ?_⟩
      simp only [Classical.not_forall] at hall
      obtain ⟨name, ty, hm, hno⟩ := hall
      have hla : last name l = none := Classical.not_not.1 hno
      obtain ⟨i, hi⟩ := List.getElem?_of_mem hm
      have h5 := g5 i name ty hi
      rw [hla] at h5
      have hlt : i < table.length := by
        obtain ⟨h4, _⟩ := List.getElem?_eq_some_iff.1 hi; omega
      have hfi : st'.found[i]? = some false := by
        rw [h5.1]; simp [hlt]
      have hany : (st'.found.any fun f => !f) = true :=
        List.any_eq_true.2 ⟨false, List.mem_of_getElem? hfi, rfl⟩
      rw [hany]
      exact ⟨_, rfl⟩
  · obtain ⟨m, hm⟩ := hs.2 hty
    rw [hm]
    exact ⟨fun h => absurd h.1 hty, fun _ => ⟨m, rfl⟩⟩

end

/-! Fields of a written object -/

/-- The tree of a list of fields. -/
def treeOf : List (Bytes × Val) → Maps
  | [] => .nil
  | (k, v) :: l => .cons k v (treeOf l)

theorem treeOf_len (l : List (Bytes × Val)) : (treeOf l).len = l.length := by
  induction l with
  | nil => rfl
  | cons x l ih => simp [treeOf, Maps.len, ih]

theorem last_treeOf {l : List (Bytes × Val)} (hn : (l.map (·.1)).Nodup) {k : Bytes} {v : Val}
    (h : (k, v) ∈ l) : last k (treeOf l) = some v := by
  induction l with
  | nil => simp at h
  | cons x l ih =>
    obtain ⟨k', v'⟩ := x
    simp only [List.map_cons, List.nodup_cons] at hn
    have hnone : ∀ k, k ∉ l.map (·.1) → last k (treeOf l) = none := by
      clear ih h hn
      intro k hk
      induction l with
      | nil => rfl
      | cons y l ih2 =>
        obtain ⟨k2, v2⟩ := y
        simp only [List.map_cons, List.mem_cons, not_or] at hk
        simp only [treeOf, last, ih2 hk.2]
        rw [if_neg (fun h => hk.1 h.symm)]
    simp only [treeOf, last]
    rcases List.mem_cons.1 h with h | h
    · cases h
      rw [hnone k hn.1]; simp
    · rw [ih hn.2 h]

/-- The type of field contents. -/
def FV.ty : FV → Ty
  | .uuid _ => .uuid
  | .string _ => .string
  | .int _ => .int
  | .bool _ => .bool

theorem accepts_of_stands {f : FV} {v : Val} (h : f.Stands v) : f.ty.Accepts v := by
  cases f with
  | uuid u => obtain ⟨s, h1, h2⟩ := h; exact ⟨s, u, h1, h2⟩
  | string s => exact ⟨s, h⟩
  | int i => exact ⟨i, h⟩
  | bool b => exact ⟨b, h⟩

theorem stands_unique {f g : FV} {v : Val} (hf : f.Stands v) (hg : g.Stands v)
    (hk : f.ty = g.ty) : f = g := by
  have hty : ∀ u s, f = .uuid u → g ≠ .string s := by
    rintro u s rfl rfl; simp [FV.ty] at hk
  have hty' : ∀ u s, g = .uuid u → f ≠ .string s := by
    rintro u s rfl rfl; simp [FV.ty] at hk
  clear hk
  cases f with
  | uuid u =>
    obtain ⟨s, rfl, h1⟩ := hf
    cases g with
    | uuid u' =>
      obtain ⟨s', h2, h3⟩ := hg
      cases h2
      have ha := (fromString_iff ⟨0, 0⟩ u s).2 h1
      have hb := (fromString_iff ⟨0, 0⟩ u' s).2 h3
      rw [ha] at hb
      cases hb; rfl
    | string s' => exact absurd rfl (hty u s' rfl)
    | int i => simp [FV.Stands] at hg
    | bool b => simp [FV.Stands] at hg
  | string s =>
    simp only [FV.Stands] at hf
    subst hf
    cases g with
    | uuid u => exact absurd rfl (hty' u s rfl)
    | string s' => simp only [FV.Stands, Val.str.injEq] at hg; rw [hg]
    | int i => simp [FV.Stands] at hg
    | bool b => simp [FV.Stands] at hg
  | int i =>
    simp only [FV.Stands] at hf
    subst hf
    cases g <;> simp_all [FV.Stands]
  | bool b =>
    simp only [FV.Stands] at hf
    subst hf
    cases g <;> simp_all [FV.Stands]

/-- Field contents and written values agree one by one. -/
def StandsAll : List FV → List (Bytes × Val) → Prop
  | [], [] => True
  | f :: fs, p :: ps => f.Stands p.2 ∧ StandsAll fs ps
  | _, _ => False

theorem standsAll_get : ∀ {fs : List FV} {ps : List (Bytes × Val)}, StandsAll fs ps →
    fs.length = ps.length ∧ ∀ (i : Nat) (f : FV) (p : Bytes × Val), fs[i]? = some f → ps[i]? = some p → f.Stands p.2
  | [], [], _ => ⟨rfl, by simp⟩
  | f :: fs, p :: ps, h => by
    obtain ⟨h1, h2⟩ := standsAll_get h.2
    refine ⟨by simp [h1], ?_⟩
    intro i f' p' hf hp
    cases i with
    | zero => simp only [List.getElem?_cons_zero, Option.some.injEq] at hf hp; rw [← hf, ← hp]; exact h.1
    | succ i => simp only [List.getElem?_cons_succ] at hf hp; exact h2 i f' p' hf hp
  | [], _ :: _, h => h.elim
  | _ :: _, [], h => h.elim

theorem typed_treeOf {fields : List (Bytes × Ty)} {l : List (Bytes × Val)}
    (h : ∀ p ∈ l, ∀ ty, (p.1, ty) ∈ fields → ty.Accepts p.2) : Typed fields (treeOf l) := by
  induction l with
  | nil => trivial
  | cons x l ih =>
    exact ⟨h x (List.mem_cons_self ..), ih fun p hp => h p (List.mem_cons_of_mem _ hp)⟩

theorem unknown_treeOf {fields : List (Bytes × Ty)} {l : List (Bytes × Val)}
    (h : ∀ p ∈ l, p.1 ∈ fields.map (·.1)) : unknown fields (treeOf l) = [] := by
  induction l with
  | nil => rfl
  | cons x l ih =>
    obtain ⟨k, v⟩ := x
    simp only [treeOf, unknown]
    rw [if_pos (h (k, v) (List.mem_cons_self ..))]
    exact ih fun p hp => h p (List.mem_cons_of_mem _ hp)

theorem fits_treeOf {l : List (Bytes × Val)} (h : ∀ p ∈ l, p.1.length + 5 < 2147483648 ∧ Fits (fun _ => True) p.2) :
    FitsMap (fun _ => True) (treeOf l) := by
  induction l with
  | nil => trivial
  | cons x l ih =>
    have hx := h x (List.mem_cons_self ..)
    exact ⟨hx.1, hx.2, ih fun p hp => h p (List.mem_cons_of_mem _ hp)⟩

/-- Reading any encoding of the fields of an object. -/
theorem read_of {α : Type} {K : Kind α} {table : List (Entry α)} (ht : TableOK K table) (obj : α)
    (hread : ∀ bs, K.read bs = decode_map table obj bs)
    (hkinds : ∀ a, (K.view a).map FV.ty = K.fields.map (·.2))
    (inj : ∀ a a', K.view a = K.view a' → a = a')
    (a : α) (l : List (Bytes × Val)) (hnames : l.map (·.1) = K.fields.map (·.1))
    (hst : StandsAll (K.view a) l)
    (hlen : l.length < 2147483648)
    (hf : ∀ p ∈ l, p.1.length + 5 < 2147483648 ∧ Fits (fun _ => True) p.2) (bs rest : Bytes)
    (he : Encodes (.map (treeOf l)) bs) : K.read (bs ++ rest) = .ok (a, [], rest) := by
  have hvl : ∀ a, (K.view a).length = K.fields.length := fun a => by
    simpa using congrArg List.length (hkinds a)
  obtain ⟨hl1, hl2⟩ := standsAll_get hst
  have hfm : Fits (fun _ => True) (.map (treeOf l)) := ⟨by rw [treeOf_len]; exact hlen, fits_treeOf hf⟩
  have hnd : (l.map (·.1)).Nodup := by rw [hnames]; exact ht.nodup
  have hfield : ∀ (i : Nat) (p : Bytes × Val), l[i]? = some p →
      ∃ f ty, (K.view a)[i]? = some f ∧ K.fields[i]? = some (p.1, ty) ∧ f.ty = ty ∧ f.Stands p.2 := by
    intro i p hp
    have hlt : i < l.length := (List.getElem?_eq_some_iff.1 hp).1
    obtain ⟨f, hfi⟩ : ∃ f, (K.view a)[i]? = some f := ⟨_, List.getElem?_eq_getElem (by omega)⟩
    have hlt2 : i < K.fields.length := by rw [← hvl a]; omega
    obtain ⟨⟨nm, ty⟩, hfl⟩ : ∃ f, K.fields[i]? = some f := ⟨_, List.getElem?_eq_getElem hlt2⟩
    have h1 : (l.map (·.1))[i]? = some p.1 := by simp [hp]
    rw [hnames] at h1
    simp only [List.getElem?_map, hfl, Option.map_some, Option.some.injEq] at h1
    have h2 : ((K.view a).map FV.ty)[i]? = some f.ty := by simp [hfi]
    rw [hkinds a] at h2
    simp only [List.getElem?_map, hfl, Option.map_some, Option.some.injEq] at h2
    exact ⟨f, ty, hfi, by rw [hfl, ← h1], h2.symm, hl2 i f p hfi hp⟩
  have hgood : Good K.fields (treeOf l) := by
    refine ⟨typed_treeOf ?_, ?_⟩
    · intro p hp ty hm
      obtain ⟨i, hi⟩ := List.getElem?_of_mem hp
      obtain ⟨f, ty', h1, h2, h3, h4⟩ := hfield i p hi
      obtain ⟨j, hj⟩ := List.getElem?_of_mem hm
      have hij : j = i := name_idx ht.nodup hj h2 rfl
      subst hij
      rw [h2] at hj
      cases hj
      rw [← h3]; exact accepts_of_stands h4
    · intro name ty hm
      obtain ⟨i, hi⟩ := List.getElem?_of_mem hm
      have hlt : i < l.length := by
        have := (List.getElem?_eq_some_iff.1 hi).1
        have h3 := hvl a
        omega
      obtain ⟨⟨k, v⟩, hp⟩ : ∃ p, l[i]? = some p := ⟨_, List.getElem?_eq_getElem hlt⟩
      obtain ⟨f, ty', _, h2, _, _⟩ := hfield i _ hp
      rw [hi] at h2
      cases h2
      rw [last_treeOf hnd (List.mem_of_getElem? hp)]
      simp
  obtain ⟨a', h1, h2, h3⟩ := (decode_spec ht obj (hvl obj) (treeOf l) _ rest hfm he).1 hgood
  have hunk : unknown K.fields (treeOf l) = [] := unknown_treeOf fun p hp => by
    rw [← hnames]; exact List.mem_map.2 ⟨p, hp, rfl⟩
  rw [hread, h1, hunk]
  congr 2
  apply inj
  apply List.ext_getElem?
  intro i
  by_cases hlt : i < l.length
  · obtain ⟨⟨k, v⟩, hp⟩ : ∃ p, l[i]? = some p := ⟨_, List.getElem?_eq_getElem hlt⟩
    obtain ⟨f, ty, g1, g2, g3, g4⟩ := hfield i _ hp
    obtain ⟨fv, w, e1, e2, e3⟩ := h3 i k ty g2
    rw [last_treeOf hnd (List.mem_of_getElem? hp)] at e2
    cases e2
    have hty : fv.ty = ty := by
      have h5 : ((K.view a').map FV.ty)[i]? = some fv.ty := by simp [e1]
      rw [hkinds a'] at h5
      simp only [List.getElem?_map, g2, Option.map_some, Option.some.injEq] at h5
      exact h5.symm
    rw [e1, g1, stands_unique e3 g4 (hty.trans g3.symm)]
  · have := hvl a
    have := hvl a'
    rw [List.getElem?_eq_none (by omega), List.getElem?_eq_none (by omega)]

theorem writeRead_of {α : Type} {K : Kind α} {table : List (Entry α)} (ht : TableOK K table) (obj : α)
    (hread : ∀ bs, K.read bs = decode_map table obj bs)
    (hkinds : ∀ a, (K.view a).map FV.ty = K.fields.map (·.2))
    (inj : ∀ a a', K.view a = K.view a' → a = a')
    (a : α) (l : List (Bytes × Val)) (hnames : l.map (·.1) = K.fields.map (·.1))
    (hst : StandsAll (K.view a) l) (hw : K.write a = enc (.map (treeOf l)))
    (hlen : l.length < 2147483648)
    (hf : ∀ p ∈ l, p.1.length + 5 < 2147483648 ∧ Fits (fun _ => True) p.2) (rest : Bytes) :
    K.read (K.write a ++ rest) = .ok (a, [], rest) :=
  read_of ht obj hread hkinds inj a l hnames hst hlen hf _ rest (hw ▸ encodes_enc _)

theorem text_byte (u : Uuid) : ∀ c ∈ Uuid.text u, c < 256 := by
  have h1 : ∀ d, d < 16 → Uuid.hexChar d < 256 := by
    intro d hd; unfold Uuid.hexChar; split <;> omega
  have h2 : ∀ w n, ∀ c ∈ Uuid.hexPad w n, c < 256 := by
    intro w n
    induction w with
    | zero => simp [Uuid.hexPad]
    | succ w ih =>
      intro c hc
      rcases List.mem_cons.1 hc with h | h
      · rw [h]; exact h1 _ (Nat.mod_lt _ (by omega))
      · exact ih c h
  intro c hc
  simp only [Uuid.text, List.mem_append, List.mem_cons] at hc
  rcases hc with h | rfl | h | rfl | h | rfl | h | rfl | h | h
  all_goals first | omega | exact h2 _ _ _ h

theorem text_bytes (u : Uuid) : ((Uuid.text u).map UInt8.ofNat).map (·.toNat) = Uuid.text u := by
  rw [List.map_map]
  have : ∀ c ∈ Uuid.text u, ((fun x : UInt8 => x.toNat) ∘ UInt8.ofNat) c = c := by
    intro c hc
    simp [Function.comp, UInt8.toNat_ofNat', Nat.mod_eq_of_lt (text_byte u c hc)]
  exact (List.map_congr_left this).trans (List.map_id _)

theorem text_lower (u : Uuid) : (Uuid.text u).map C45.lower = Uuid.text u := by
  have h1 : ∀ d, d < 16 → C45.lower (Uuid.hexChar d) = Uuid.hexChar d := by
    intro d hd; unfold C45.lower Uuid.hexChar; split <;> split at * <;> omega
  have h2 : ∀ w n, (Uuid.hexPad w n).map C45.lower = Uuid.hexPad w n := by
    intro w n
    induction w with
    | zero => rfl
    | succ w ih => simp only [Uuid.hexPad, List.map_cons, ih, h1 _ (Nat.mod_lt _ (by omega : 16 > 0))]
  simp only [Uuid.text, List.map_append, List.map_cons, h2]
  rfl

theorem uuidText_text (u : Uuid) (hu : C45.Legal u) : UuidText ((Uuid.text u).map UInt8.ofNat) u := by
  refine ⟨hu, by simp [C45.text_length], ?_⟩
  rw [text_bytes, List.take_of_length_le (by simp [C45.text_length]), text_lower]

end Verif.C48
