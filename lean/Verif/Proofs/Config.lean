import Verif.Proofs.Json

/-! Saving and loading the configuration (used by C35 and C36). -/
namespace Verif
namespace Config
open Data C34 C35 Json

def shape (v : Var) : Bytes × VType × Nat := (v.name, v.type, v.flags)

theorem find_mem {cfg : List Var} {n : Bytes} {v : Var} (h : find cfg n = some v) : v ∈ cfg ∧ v.name = n := by
  induction cfg with
  | nil => simp [find] at h
  | cons a l ih =>
    simp only [find] at h
    split at h
    · cases h; exact ⟨List.mem_cons_self, by assumption⟩
    · exact ⟨List.mem_cons_of_mem _ (ih h).1, (ih h).2⟩

theorem find_of_mem {cfg : List Var} (hn : (cfg.map (·.name)).Nodup) {v : Var} (h : v ∈ cfg) :
    find cfg v.name = some v := by
  induction cfg with
  | nil => cases h
  | cons a l ih =>
    simp only [List.map_cons, List.nodup_cons] at hn
    simp only [find]
    rcases List.mem_cons.1 h with rfl | h
    · rw [if_pos rfl]
    · rw [if_neg (by intro e; exact hn.1 (e ▸ List.mem_map_of_mem h))]
      exact ih hn.2 h

theorem find_update {cfg : List Var} {n : Bytes} {w : Var} (hw : w.name = n) {v : Var} (hf : find cfg n = some v) (m : Bytes) :
    find (update cfg n w) m = if n = m then some w else find cfg m := by
  induction cfg with
  | nil => simp [find] at hf
  | cons a l ih =>
    simp only [find] at hf
    simp only [update]
    by_cases ha : a.name = n
    · rw [if_pos ha]
      simp only [find, hw]
      by_cases hm : n = m
      · rw [if_pos hm, if_pos hm]
      · rw [if_neg hm, if_neg hm, if_neg (by rw [ha]; exact hm)]
    · rw [if_neg ha] at hf ⊢
      simp only [find, ih hf]
      by_cases hm : a.name = m
      · rw [if_pos hm, if_pos hm, if_neg (by rintro rfl; exact ha hm)]
      · rw [if_neg hm, if_neg hm]

theorem update_shape {cfg : List Var} {n : Bytes} {v w : Var} (hf : find cfg n = some v) (hs : shape w = shape v) :
    (update cfg n w).map shape = cfg.map shape := by
  induction cfg with
  | nil => rfl
  | cons a l ih =>
    simp only [find] at hf
    simp only [update]
    by_cases ha : a.name = n
    · rw [if_pos ha] at hf ⊢; cases hf; simp [hs]
    · rw [if_neg ha] at hf ⊢; simp [ih hf]

theorem find_shape {a b : List Var} (h : a.map shape = b.map shape) {n : Bytes} {v : Var} (hf : find a n = some v) :
    ∃ w, find b n = some w ∧ shape w = shape v := by
  induction a generalizing b with
  | nil => simp [find] at hf
  | cons x l ih =>
    cases b with
    | nil => simp at h
    | cons y m =>
      simp only [List.map_cons, List.cons.injEq] at h
      have hxy : x.name = y.name := by have := h.1; simp only [shape, Prod.mk.injEq] at this; exact this.1
      simp only [find] at hf ⊢
      rw [← hxy]
      split at hf
      · rename_i e; rw [if_pos e]; cases hf; exact ⟨_, rfl, h.1.symm⟩
      · rename_i e; rw [if_neg e]; exact ih h.2 hf

/-- What the table of config_prepare guarantees. -/
theorem prepare_nodup : (prepare.map (·.name)).Nodup := by decide +kernel
theorem prepare_names : ∀ s ∈ prepare.map shape, s.1.length + 5 < 2147483648 ∧ delimited false s.1 = true := by decide +kernel
theorem prepare_flags : ∀ s ∈ prepare.map shape, (s.2.2 &&& 16 > 0) = false → s.2.2 &&& 1 > 0 := by decide +kernel
theorem prepare_length : (prepare.filter fun v => !v.is 16).length = 23 := by decide +kernel

theorem table_names {cfg : List Var} (h : Table cfg) : cfg.map (·.name) = prepare.map (·.name) := by
  have := congrArg (List.map (fun s : Bytes × VType × Nat => s.1)) h
  simpa [List.map_map, Function.comp_def] using this

theorem table_mem {cfg : List Var} (h : Table cfg) {v : Var} (hv : v ∈ cfg) : shape v ∈ prepare.map shape := by
  have : shape v ∈ cfg.map shape := List.mem_map_of_mem hv
  exact (show cfg.map shape = prepare.map shape from h) ▸ this

/-! One variable. -/

/-- Loading the value `x` gives the value of `v`. -/
def Loads (x : Val) (v : Var) : Prop :=
  ∀ v0 rest, v0.type = v.type → ∃ w, setVar v0 (enc32 x ++ rest) = .ok (w, rest) ∧ shape w = shape v0 ∧
    match v.type with
    | .bool => v.int = w.int
    | .int => v.int = w.int
    | .string => v.str = w.str
    | .data => Holds x v.str ∧ w.str = enc32 x

theorem toS64_wrap {n : Nat} (h : n < 18446744073709551616) : wrapU64 (toS64 n) = n := by
  unfold toS64 wrapS64 wrapU64; omega

theorem toS64_bounds (n : Nat) : -9223372036854775808 ≤ toS64 n ∧ toS64 n < 9223372036854775808 := by
  unfold toS64 wrapS64; omega

theorem enc_ne_nil (x : Val) : ∃ t r, enc32 x = t :: r := by
  cases x with
  | null => exact ⟨_, _, rfl⟩
  | bool b => exact ⟨_, _, rfl⟩
  | int i => obtain ⟨t, r, h, _⟩ := write_integer_head (wrapU64 i); exact ⟨t, r, h⟩
  | real d => unfold enc32 data_write_real; split <;> exact ⟨_, _, rfl⟩
  | str s => obtain ⟨t, r, h, _⟩ := writeCount_head 114 s.length (by omega); exact ⟨t, r ++ s, by simp [enc32, data_write_raw, h]⟩
  | arr l => exact ⟨_, _, rfl⟩
  | map l => exact ⟨_, _, rfl⟩

/-- The value of a data variable that can be saved. -/
def Chosen (d : Nat) (x : Val) (v : Var) : Prop :=
  v.type = .data → Holds x v.str ∧ Fits (fun _ => True) x ∧ Plain x ∧ depth x + 1 ≤ d

theorem loads_of_chosen {d : Nat} (hd : 2 ≤ d) {v : Var}
    (hv : Valid d (fun s => delimited false s = true) SmallInt Plain v) {y : Val} (hy : Chosen d y v) :
    ∃ x, (v.type = .data → x = y) ∧ Encodes x (encode v) ∧ Plain x ∧ depth x + 1 ≤ d ∧ Loads x v := by
  unfold Valid at hv
  cases ht : v.type with
  | bool =>
    rw [ht] at hv
    refine ⟨.bool (v.int ≠ 0), nofun, by simp [Encodes, encode, ht], by simp [Plain], by simpa [depth] using hd, ?_⟩
    intro v0 rest h0
    rw [ht] at h0
    refine ⟨{ v0 with int := v.int }, ?_, rfl, by simp [ht]⟩
    rcases hv with h | h <;> rw [h] <;> simp [setVar, enc32, data_write_bool, h0] <;> rfl
  | int =>
    rw [ht] at hv
    have hw := toS64_wrap hv.1
    have hb := toS64_bounds v.int
    refine ⟨.int (toS64 v.int), nofun, by simp [Encodes, encode, ht, hw], by simpa [Plain] using hv.2, by simpa [depth] using hd, ?_⟩
    intro v0 rest h0
    rw [ht] at h0
    have hr := read_integer rest hb.1 hb.2
    refine ⟨{ v0 with int := v.int }, ?_, rfl, by simp [ht]⟩
    obtain ⟨t, r, he, h1, h2⟩ := write_integer_head (wrapU64 (toS64 v.int))
    simp only [enc32]
    rw [he, List.cons_append] at hr ⊢
    simp only [setVar, h0]
    rw [if_neg (by simp [data_is_integer]; omega), hr, Res.bind_ok]
    dsimp only
    rw [hw]
  | string =>
    rw [ht] at hv
    refine ⟨.str v.str, nofun, by simp [Encodes, encode, ht], by simpa [Plain] using hv, by simpa [depth] using hd, ?_⟩
    intro v0 rest h0
    rw [ht] at h0
    have hr := read_raw (s := v.str) rest (by omega)
    refine ⟨{ v0 with str := v.str }, ?_, rfl, by simp [ht]⟩
    obtain ⟨t, r, he, h1, h2⟩ := writeCount_head 114 v.str.length (by omega)
    simp only [enc32]
    have he2 : data_write_raw v.str ++ rest = t :: (r ++ v.str ++ rest) := by simp [data_write_raw, he]
    rw [he2] at hr ⊢
    simp only [setVar, h0]
    rw [if_neg (by simp [data_is_string]; omega), hr, Res.bind_ok]
  | data =>
    rw [ht] at hv
    clear hv
    obtain ⟨hx, hf, hp, hdd⟩ := hy ht
    generalize y = x at *
    refine ⟨x, fun _ => rfl, ?_, hp, hdd, ?_⟩
    · simp only [encode, ht]
      rcases hx with ⟨h1, h2⟩ | h
      · subst h2; simp [h1, Encodes]
      · rw [if_neg]
        · exact h
        · intro hn
          rw [List.isEmpty_iff.1 hn] at h
          have := reads_enc (R := fun _ => True)
          cases x with
          | null => simp [Encodes, data_write_null] at h
          | bool b => simp [Encodes, data_write_bool] at h
          | int i => obtain ⟨t, r, h', _⟩ := write_integer_head (wrapU64 i); simp [Encodes, h'] at h
          | real d => exact absurd hp (by simp [Plain])
          | str s =>
            obtain ⟨t, r, h', _⟩ := writeCount_head 114 s.length (by omega)
            simp [Encodes, data_write_raw, h'] at h
          | arr l =>
            obtain ⟨hh, b, h1, _, h3⟩ := h
            obtain ⟨t, r, h', _⟩ := writeCount_head 42 l.len (by omega)
            rcases h1 with h1 | h1 <;> simp [h1, data_write_array, data_write_array32, h'] at h3
          | map l =>
            obtain ⟨hh, b, h1, _, h3⟩ := h
            obtain ⟨t, r, h', _⟩ := writeCount_head 78 l.len (by omega)
            rcases h1 with h1 | h1 <;> simp [h1, data_write_map, data_write_map32, h'] at h3
    · intro v0 rest h0
      rw [ht] at h0
      have hs := data_skip_enc x hf (enc32 x) rest (encodes_enc32 x)
      refine ⟨{ v0 with str := enc32 x }, ?_, rfl, ?_⟩
      · obtain ⟨t, r, he⟩ := enc_ne_nil x
        have hl : (enc32 x ++ rest).length - rest.length = (enc32 x).length := by simp
        have ht2 : (enc32 x ++ rest).take ((enc32 x ++ rest).length - rest.length) = enc32 x := by
          rw [hl, List.take_left']; rfl
        generalize enc32 x = e at *
        subst he
        simp only [List.cons_append] at hs ht2 ⊢
        simp only [setVar, h0]
        rw [hs, Res.bind_ok, ht2]
      · simp only [ht]
        exact ⟨hx, trivial⟩

/-! All variables. -/

/-- The entries of the map. -/
def toMaps : List (Var × Val) → Maps
  | [] => .nil
  | p :: l => .cons p.1.name p.2 (toMaps l)

theorem toMaps_len (L : List (Var × Val)) : (toMaps L).len = L.length := by
  induction L with
  | nil => rfl
  | cons p l ih => simp [toMaps, Maps.len, ih]

theorem encodesMap_toMaps (L : List (Var × Val)) (h : ∀ p ∈ L, Encodes p.2 (encode p.1)) :
    EncodesMap (toMaps L) (L.flatMap fun p => data_write_raw p.1.name ++ encode p.1) := by
  induction L with
  | nil => rfl
  | cons p l ih =>
    exact ⟨encode p.1, _, h p List.mem_cons_self, ih fun q hq => h q (List.mem_cons_of_mem _ hq), by simp⟩

theorem plainMap_toMaps (L : List (Var × Val)) (h : ∀ p ∈ L, Plain p.2)
    (hn : ∀ p ∈ L, p.1.name.length + 5 < 2147483648 ∧ delimited false p.1.name = true) : PlainMap (toMaps L) := by
  induction L with
  | nil => trivial
  | cons p l ih =>
    exact ⟨hn p List.mem_cons_self, h p List.mem_cons_self,
      ih (fun q hq => h q (List.mem_cons_of_mem _ hq)) fun q hq => hn q (List.mem_cons_of_mem _ hq)⟩

theorem depthMap_toMaps {d : Nat} (hd : 1 ≤ d) (L : List (Var × Val)) (h : ∀ p ∈ L, depth p.2 ≤ d) :
    depthMap (toMaps L) ≤ d := by
  induction L with
  | nil => simp [toMaps, depthMap]
  | cons p l ih =>
    have h1 := h p List.mem_cons_self
    have h2 := ih fun q hq => h q (List.mem_cons_of_mem _ hq)
    simp only [toMaps, depthMap]; omega

/-- The loop over the entries. -/
theorem load (L : List (Var × Val)) (cfg : List Var) (rest : Bytes)
    (hn : (L.map (·.1.name)).Nodup)
    (hl : ∀ p ∈ L, Loads p.2 p.1 ∧ p.1.name.length < 2147483648)
    (hf : ∀ p ∈ L, ∃ v0, find cfg p.1.name = some v0 ∧ shape v0 = shape p.1 ∧ v0.is 1 = true) :
    ∃ cfg', setLoop L.length cfg (encMap32 (toMaps L) ++ rest) = .ok cfg' ∧ cfg'.map shape = cfg.map shape ∧
      (∀ m, m ∉ L.map (·.1.name) → find cfg' m = find cfg m) ∧
      ∀ p ∈ L, ∃ w, find cfg' p.1.name = some w ∧ Same p.1 w ∧ (p.1.type = .data → w.str = enc32 p.2) := by
  induction L generalizing cfg with
  | nil => exact ⟨cfg, rfl, rfl, fun _ _ => rfl, fun p hp => by cases hp⟩
  | cons p l ih =>
    obtain ⟨v0, h0, hs, hc⟩ := hf p List.mem_cons_self
    obtain ⟨hload, hlen⟩ := hl p List.mem_cons_self
    have hty : v0.type = p.1.type := by simp only [shape, Prod.mk.injEq] at hs; exact hs.2.1
    obtain ⟨w, hw, hws, hval⟩ := hload v0 (encMap32 (toMaps l) ++ rest) hty
    have hwn : w.name = p.1.name := by
      simp only [shape, Prod.mk.injEq] at hws hs; rw [hws.1, hs.1]
    have hfind := fun m => find_update hwn h0 m
    simp only [List.map_cons, List.nodup_cons] at hn
    obtain ⟨cfg', h1, h2, h3, h4⟩ := ih (update cfg p.1.name w) hn.2
      (fun q hq => hl q (List.mem_cons_of_mem _ hq))
      (fun q hq => by
        obtain ⟨u, hu⟩ := hf q (List.mem_cons_of_mem _ hq)
        refine ⟨u, ?_, hu.2⟩
        rw [hfind, if_neg]
        · exact hu.1
        · intro e
          exact hn.1 (e ▸ List.mem_map_of_mem (f := fun x : Var × Val => x.1.name) hq))
    refine ⟨cfg', ?_, ?_, ?_, ?_⟩
    · simp only [List.length_cons, setLoop, toMaps, encMap32]
      rw [List.append_assoc, List.append_assoc, read_raw _ hlen, Res.bind_ok]
      dsimp only
      rw [h0]
      dsimp only
      rw [if_neg (by simp [hc]), hw, Res.bind_ok]
      exact h1
    · rw [h2, update_shape h0 hws]
    · intro m hm
      simp only [List.map_cons, List.mem_cons, not_or] at hm
      rw [h3 m hm.2, hfind, if_neg (Ne.symm hm.1)]
    · intro q hq
      rcases List.mem_cons.1 hq with rfl | hq
      · refine ⟨w, by rw [h3 _ hn.1, hfind, if_pos rfl], ?_⟩
        simp only [shape, Prod.mk.injEq] at hws hs
        refine ⟨⟨hwn.symm, by rw [hws.2.1, hs.2.1], by rw [hws.2.2, hs.2.2], ?_⟩, fun e => ?_⟩
        · split <;> rename_i e <;> rw [e] at hval
          · exact hval
          · exact hval
          · exact hval
          · exact ⟨q.2, hval.1, .inr (hval.2 ▸ encodes_enc32 q.2)⟩
        · rw [e] at hval
          exact hval.2
      · exact h4 q hq

/-- Values for a list of variables. -/
theorem choose_values_of {d : Nat} (hd : 2 ≤ d) (val : Var → Val) (l : List Var)
    (h : ∀ v ∈ l, Valid d (fun s => delimited false s = true) SmallInt Plain v) (hy : ∀ v ∈ l, Chosen d (val v) v) :
    ∃ L : List (Var × Val), L.map (·.1) = l ∧
      ∀ p ∈ L, (p.1.type = .data → p.2 = val p.1) ∧ Encodes p.2 (encode p.1) ∧ Plain p.2 ∧ depth p.2 + 1 ≤ d ∧ Loads p.2 p.1 := by
  induction l with
  | nil => exact ⟨[], rfl, fun p hp => by cases hp⟩
  | cons v l ih =>
    obtain ⟨L, h1, h2⟩ := ih (fun u hu => h u (List.mem_cons_of_mem _ hu)) fun u hu => hy u (List.mem_cons_of_mem _ hu)
    obtain ⟨x, hx⟩ := loads_of_chosen hd (h v List.mem_cons_self) (hy v List.mem_cons_self)
    refine ⟨(v, x) :: L, by simp [h1], fun p hp => ?_⟩
    rcases List.mem_cons.1 hp with rfl | hp
    · exact hx
    · exact h2 p hp

/-- A valid data variable has a value. -/
theorem exists_value {d : Nat} (l : List Var) (h : ∀ v ∈ l, Valid d (fun s => delimited false s = true) SmallInt Plain v) :
    ∃ val : Var → Val, ∀ v ∈ l, Chosen d (val v) v := by
  have : ∀ v, ∃ x, v ∈ l → Chosen d x v := by
    intro v
    by_cases hm : v ∈ l
    · by_cases ht : v.type = .data
      · have := h v hm
        unfold Valid at this
        rw [ht] at this
        obtain ⟨x, hx⟩ := this
        exact ⟨x, fun _ _ => hx⟩
      · exact ⟨.null, fun _ e => absurd e ht⟩
    · exact ⟨.null, fun e => absurd e hm⟩
  exact ⟨fun v => (this v).choose, fun v hv => (this v).choose_spec hv⟩

theorem choose_values {d : Nat} (hd : 2 ≤ d) (l : List Var)
    (h : ∀ v ∈ l, Valid d (fun s => delimited false s = true) SmallInt Plain v) :
    ∃ L : List (Var × Val), L.map (·.1) = l ∧
      ∀ p ∈ L, Encodes p.2 (encode p.1) ∧ Plain p.2 ∧ depth p.2 + 1 ≤ d ∧ Loads p.2 p.1 := by
  obtain ⟨val, hy⟩ := exists_value l h
  obtain ⟨L, h1, h2⟩ := choose_values_of hd val l h hy
  exact ⟨L, h1, fun p hp => (h2 p hp).2⟩

theorem filter_len {cfg : List Var} (h : Table cfg) :
    (cfg.filter fun v => !v.is 16).length = 23 := by
  have e : ∀ l : List Var, (l.filter fun v => !v.is 16).length =
      ((l.map shape).filter fun s => !(decide (s.2.2 &&& 16 > 0))).length := by
    intro l
    rw [List.filter_map, List.length_map]; rfl
  rw [e, show cfg.map shape = prepare.map shape from h, ← e, prepare_length]

/-- Saving and opening, with the values of data variables. -/
theorem restores_of {fp : Bytes → Option (Nat × Nat)} {fmt : Nat → Bytes} {d : Nat} {cfg fresh : List Var} (hd : 2 ≤ d)
    (hc : Table cfg) (hf : Table fresh)
    (hv : ∀ v ∈ cfg, Saved v → Valid d (fun s => delimited false s = true) SmallInt Plain v)
    (val : Var → Val) (hy : ∀ v ∈ cfg, Saved v → Chosen d (val v) v) :
    ∃ text, saveText fmt d cfg = .ok text ∧ ∀ old, ∃ cfg',
      open_ fp fmt d fresh ⟨some text, old⟩ = .ok (cfg', ⟨some text, old⟩) ∧ Table cfg' ∧
      ∀ name v, find cfg name = some v →
        ∃ w, find cfg' name = some w ∧ (Saved v → Same v w ∧ (v.type = .data → w.str = enc32 (val v))) ∧
          (¬ Saved v → find fresh name = some w) := by
  obtain ⟨L, hL, hval'⟩ := choose_values_of hd val (cfg.filter fun v => !v.is 16) (by
    intro v h
    rw [List.mem_filter] at h
    exact hv v h.1 (by simpa [Saved] using h.2)) (by
    intro v h
    rw [List.mem_filter] at h
    exact hy v h.1 (by simpa [Saved] using h.2))
  have hval := fun p hp => (hval' p hp).2
  have hmem : ∀ p ∈ L, p.1 ∈ cfg ∧ p.1.is 16 = false := by
    intro p hp
    have : p.1 ∈ cfg.filter fun v => !v.is 16 := by rw [← hL]; exact List.mem_map_of_mem hp
    rw [List.mem_filter] at this
    exact ⟨this.1, by simpa using this.2⟩
  have hlen : L.length = 23 := by rw [← filter_len hc, ← hL, List.length_map]
  have hnod : (cfg.map (·.name)).Nodup := by rw [table_names hc]; exact prepare_nodup
  have hplain : Plain (.map (toMaps L)) := by
    refine ⟨by rw [toMaps_len]; omega, plainMap_toMaps L (fun p hp => (hval p hp).2.1) fun p hp => ?_⟩
    exact prepare_names _ (table_mem hc (hmem p hp).1)
  have hdep : depth (.map (toMaps L)) ≤ d := by
    have := depthMap_toMaps (d := d - 1) (by omega) L fun p hp => by have := (hval p hp).2.2.1; omega
    simp only [depth]; omega
  have henc : Encodes (.map (toMaps L)) (list_persistent cfg) := by
    refine ⟨_, _, .inl rfl, encodesMap_toMaps L fun p hp => (hval p hp).1, ?_⟩
    unfold list_persistent
    rw [← hL, toMaps_len, List.length_map, List.flatMap_map]
  have htext : saveText fmt d cfg = .ok (text true 0 (.map (toMaps L))) := by
    have := export_text fmt true _ hplain d hdep 0 _ [] henc
    rw [List.append_nil] at this
    unfold saveText export_pretty
    rw [this, Res.bind_ok]
  refine ⟨_, htext, fun old => ?_⟩
  have hload := load L fresh [] (by
      have : L.map (·.1.name) = (cfg.filter fun v => !v.is 16).map (·.name) := by
        rw [← hL, List.map_map]; rfl
      rw [this]
      exact (List.filter_sublist.map _).nodup hnod)
    (fun p hp => ⟨(hval p hp).2.2.2, by
      have := (prepare_names _ (table_mem hc (hmem p hp).1)).1
      exact Nat.lt_of_le_of_lt (Nat.le_add_right _ 5) this⟩)
    (fun p hp => by
      have h1 := find_of_mem hnod (hmem p hp).1
      obtain ⟨w, hw, hs⟩ := find_shape (show cfg.map shape = fresh.map shape from hc.trans hf.symm) h1
      refine ⟨w, hw, hs, ?_⟩
      have h2 := prepare_flags _ (table_mem hc (hmem p hp).1)
      simp only [shape, Prod.mk.injEq] at hs
      have h3 := (hmem p hp).2
      unfold Var.is at h3 ⊢
      rw [hs.2.2]
      exact decide_eq_true (h2 (by simpa [shape] using h3)))
  obtain ⟨cfg', h1, h2, h3, h4⟩ := hload
  refine ⟨cfg', ?_, ?_, ?_⟩
  · unfold open_
    dsimp only
    rw [if_neg (by simp [text]), set, parse_text fp true _ hplain d hdep 0, Res.bind_ok, set_data]
    simp only [enc32]
    rw [read_map32 _ (by rw [toMaps_len]; omega), Res.bind_ok]
    dsimp only
    rw [toMaps_len, Int.toNat_natCast]
    rw [List.append_nil] at h1
    rw [h1]
    rfl
  · exact h2.trans hf
  · intro name v hv'
    obtain ⟨hm, hname⟩ := find_mem hv'
    by_cases hs : v.is 16 = false
    · have : v ∈ L.map (·.1) := by rw [hL, List.mem_filter]; exact ⟨hm, by simp [hs]⟩
      obtain ⟨p, hp, rfl⟩ := List.mem_map.1 this
      obtain ⟨w, hw, hsame⟩ := h4 p hp
      rw [hname] at hw
      refine ⟨w, hw, fun _ => ⟨hsame.1, fun e => ?_⟩, fun h => absurd hs h⟩
      rw [hsame.2 e, (hval' p hp).1 e]
    · obtain ⟨w, hw, _⟩ := find_shape (show cfg.map shape = cfg'.map shape from hc.trans (h2.trans hf).symm) hv'
      refine ⟨w, hw, fun h => absurd h hs, fun _ => ?_⟩
      rw [← h3 name, hw]
      intro hin
      obtain ⟨p, hp, he⟩ := List.mem_map.1 hin
      have h5 := find_of_mem hnod (hmem p hp).1
      rw [he, hv'] at h5
      cases h5
      exact hs (hmem p hp).2

theorem restores {fp : Bytes → Option (Nat × Nat)} {fmt : Nat → Bytes} {d : Nat} {cfg fresh : List Var} (hd : 2 ≤ d)
    (hc : Table cfg) (hf : Table fresh)
    (hv : ∀ v ∈ cfg, Saved v → Valid d (fun s => delimited false s = true) SmallInt Plain v) :
    Restores fp fmt d cfg fresh := by
  obtain ⟨val, hy⟩ := exists_value (cfg.filter fun v => !v.is 16) (by
    intro v h
    rw [List.mem_filter] at h
    exact hv v h.1 (by simpa [Saved] using h.2))
  obtain ⟨text, h1, h2⟩ := restores_of (fp := fp) (fmt := fmt) hd hc hf hv val fun v hm hs =>
    hy v (List.mem_filter.2 ⟨hm, by simpa [Saved] using hs⟩)
  refine ⟨text, h1, fun old => ?_⟩
  obtain ⟨cfg', h3, h4, h5⟩ := h2 old
  refine ⟨cfg', h3, h4, fun name v e => ?_⟩
  obtain ⟨w, h6, h7, h8⟩ := h5 name v e
  exact ⟨w, h6, fun hs => (h7 hs).1, h8⟩

end Config
end Verif
