import Verif.Proofs.JsonText
import Verif.Proofs.Mapping
import Verif.Proofs.C63
import Verif.Proofs.C02
import Verif.Proofs.ParseTop

/-! What SHOW writes stands for the documents (used by C64). -/
namespace Verif.C64
open Data Decode Show C34 Spec

theorem wrapS32_small {i : Int} (h1 : -2147483648 ≤ i) (h2 : i < 2147483648) : wrapS32 i = i := by
  unfold wrapS32; omega

theorem len_items (l : List Val) : (items l).len = l.length := by
  induction l with
  | nil => rfl
  | cons v l ih => simp [items, Vals.len, ih]

theorem len_entries (l : List (Bytes × Val)) : (entries l).len = l.length := by
  induction l with
  | nil => rfl
  | cons v l ih => obtain ⟨k, v⟩ := v; simp [entries, Maps.len, ih]

theorem enc_items (l : List Val) : encAll (items l) = l.flatMap enc := by
  induction l with
  | nil => rfl
  | cons v l ih => simp [items, encAll, ih]

theorem enc_entries (l : List (Bytes × Val)) : encMap (entries l) = l.flatMap fun e => data_write_raw e.1 ++ enc e.2 := by
  induction l with
  | nil => rfl
  | cons v l ih => obtain ⟨k, v⟩ := v; simp [entries, encMap, ih]

/-- An object with these keys is written as a map. -/
theorem enc_obj (l : List (String × Val)) :
    enc (obj l) = data_write_map l.length ++ l.flatMap fun e => key e.1 ++ enc e.2 := by
  simp only [obj, enc, enc_entries, len_entries, List.length_map, List.flatMap_map]
  rfl

theorem enc_int (i : Int) : enc (.int i) = encode_integer i := rfl

theorem enc_int_wrap (i : Int) : encode_integer (wrapU64 i) = encode_integer i := by
  unfold encode_integer; congr 1; unfold wrapU64; omega

theorem memory_ok {m : Mm} (h1 : 0 ≤ m.freeCount ∧ m.freeCount ≤ m.count ∧ m.count < 2147483648)
    (h2 : 0 ≤ m.pageSize ∧ m.pageSize + 16 < 2147483648) : memory_mgr_show m = enc (memoryDoc m) := by
  unfold memory_mgr_show memoryDoc
  rw [enc_obj, wrapS32_small (by omega) (by omega), wrapS32_small (by omega) (by omega),
    wrapS32_small (by omega) (by omega), wrapS32_small (by omega) (by omega)]
  simp only [List.length_cons, List.length_nil, List.flatMap_cons, List.flatMap_nil, List.append_nil, List.append_assoc]
  cases m.limitError <;> rfl

theorem cloud_ok (c : CloudConfig) : cloud_config_write c true = enc (cloudDoc c) := by
  unfold cloud_config_write cloudDoc
  rw [enc_obj]
  simp only [List.length_cons, List.length_nil, List.flatMap_cons, List.flatMap_nil, List.append_nil, List.append_assoc]
  rfl

theorem source_ok (s : Source) (debug : Bool) : source_write s true debug = enc (sourceDoc s debug) := by
  unfold source_write sourceDoc
  rw [enc_obj]
  simp only [List.length_cons, List.length_nil, List.flatMap_cons, List.flatMap_nil, List.append_nil, List.append_assoc]
  cases debug <;> simp only [Bool.not_true, Bool.not_false, Bool.false_eq_true, if_false, if_true, List.append_nil] <;> rfl

theorem tier_ok (t : TierConfig) : t.write = enc (tierDoc t) := by
  unfold TierConfig.write tierDoc
  rw [enc_obj]
  simp only [List.length_cons, List.length_nil, List.flatMap_cons, List.flatMap_nil, List.append_nil, List.append_assoc]
  rfl

theorem index_ok (p : Show.Part) : index_show p = enc (indexDoc p) := by
  unfold index_show indexDoc
  by_cases h : p.state = 0
  · rw [if_neg (by simp [h]), if_pos h]; rfl
  · rw [if_pos h, if_neg h, enc_obj]
    simp only [List.length_cons, List.length_nil, List.flatMap_cons, List.flatMap_nil, List.append_nil, List.append_assoc]
    rfl

/-! Statistics. -/

theorem and_bit (n k : Nat) : decide (n &&& 2 ^ k > 0) = n.testBit k := by
  cases h : n.testBit k with
  | true =>
    have : (n &&& 2 ^ k).testBit k = true := by rw [Nat.testBit_and, h, Nat.testBit_two_pow]; simp
    rw [decide_eq_true_iff]
    apply Nat.pos_of_ne_zero
    intro e
    rw [e] at this
    simp at this
  | false =>
    have : n &&& 2 ^ k = 0 := by
      apply Nat.eq_of_testBit_eq
      intro i
      rw [Nat.testBit_and, Nat.testBit_two_pow, Nat.zero_testBit]
      by_cases hi : k = i
      · subst hi; simp [h]
      · simp [hi]
    simp [this]

theorem has_storage (p : Show.Part) : part_has p 1 = onStorage p := and_bit p.state 0
theorem has_cloud (p : Show.Part) : part_has p 8 = onCloud p := and_bit p.state 3

/-- The statistics after some partitions. -/
structure After (m : Mm) (ps : List Show.Part) (s : Stats) : Prop where
  partitions : s.partitions = wrapU64 ps.length
  partitions_local : s.partitions_local = wrapU64 (ps.countP onStorage)
  partitions_cloud : s.partitions_cloud = wrapU64 (ps.countP onCloud)
  regions : s.regions = wrapU64 (total ps fun p => inFile (·.regions) p)
  events : s.events = wrapU64 (total ps fun p => inFile (·.events) p + inHeap p)
  events_heap : s.events_heap = wrapU64 (total ps fun p => inHeap p)
  size : s.size = wrapU64 (total ps fun p => inFile (·.size_total) p)
  size_uncompressed : s.size_uncompressed = wrapU64 (total ps fun p => inFile (·.size_total_origin) p)
  size_heap : s.size_heap = wrapU64 (total ps (heapSize m))
  min : s.min = (ps.map (·.min)).foldl Nat.min 18446744073709551615
  max : s.max = (ps.map (·.max)).foldl Nat.max 0

theorem total_snoc (ps : List Show.Part) (p : Show.Part) (f : Show.Part → Int) : total (ps ++ [p]) f = total ps f + f p := by
  simp [total]

theorem wrap_add {a b : Int} {n : Nat} (h : n = wrapU64 a) : wrapU64 (n + b) = wrapU64 (a + b) := by
  subst h; unfold wrapU64; omega

theorem wrap_add2 {a b c : Int} {n : Nat} (h : n = wrapU64 a) : wrapU64 (wrapU64 (n + b) + wrapU64 c) = wrapU64 (a + (b + c)) := by
  subst h; unfold wrapU64; omega

theorem wrap_addw {a b : Int} {n : Nat} (h : n = wrapU64 a) : wrapU64 (n + wrapU64 b) = wrapU64 (a + b) := by
  subst h; unfold wrapU64; omega

theorem heap_size (m : Mm) (p : Show.Part) :
    wrapU64 ((heap_used m p.pages_a : Int) + heap_used m p.pages_b) = wrapU64 (heapSize m p) := by
  unfold heap_used heapSize
  rw [Int.add_mul]
  generalize (p.pages_a : Int) * (m.pageSize + 16) = a
  generalize (p.pages_b : Int) * (m.pageSize + 16) = b
  unfold wrapU64; omega

theorem after_add {m : Mm} {ps : List Show.Part} {s : Stats} (h : After m ps s) (p : Show.Part) :
    After m (ps ++ [p]) (stats_add m s p) := by
  have hheap : ((wrapU64 (p.count_a + p.count_b) : Nat) : Int) = ((wrapU64 ((inHeap p : Nat) : Int) : Nat) : Int) := rfl
  have e : stats_add m s p =
      { partitions := wrapU64 (s.partitions + 1)
        partitions_local := if part_has p 1 then wrapU64 (s.partitions_local + 1) else s.partitions_local
        partitions_cloud := if part_has p 8 then wrapU64 (s.partitions_cloud + 1) else s.partitions_cloud
        regions := if p.state ≠ 0 then wrapU64 (s.regions + p.index.regions) else s.regions
        min := if p.min < s.min then p.min else s.min
        max := if p.max > s.max then p.max else s.max
        events := if p.state ≠ 0 then wrapU64 (wrapU64 (s.events + p.index.events) + wrapU64 (p.count_a + p.count_b))
          else wrapU64 (s.events + wrapU64 (p.count_a + p.count_b))
        events_heap := wrapU64 (s.events_heap + wrapU64 (p.count_a + p.count_b))
        size := if p.state ≠ 0 then wrapU64 (s.size + p.index.size_total) else s.size
        size_uncompressed := if p.state ≠ 0 then wrapU64 (s.size_uncompressed + p.index.size_total_origin) else s.size_uncompressed
        size_heap := wrapU64 (s.size_heap + wrapU64 (heap_used m p.pages_a + heap_used m p.pages_b)) } := by
    unfold stats_add
    by_cases hs : p.state = 0 <;> simp [hs]
  rw [e]
  have file : ∀ (f : Io.Index → Nat) (n : Nat), n = wrapU64 (total ps fun p => inFile f p) →
      (if p.state ≠ 0 then wrapU64 (n + f p.index) else n) = wrapU64 (total (ps ++ [p]) fun p => inFile f p) := by
    intro f n hn
    rw [total_snoc]
    by_cases hs : p.state = 0
    · rw [if_neg (by simp [hs]), hn]; simp [inFile, hs]
    · rw [if_pos hs, wrap_add hn]; simp [inFile, hs]
  constructor
  · rw [wrap_add h.partitions]; simp
  · rw [has_storage, List.countP_append]
    cases hp : onStorage p
    · simp [hp, h.partitions_local]
    · simp only [if_true]; rw [wrap_add h.partitions_local]; simp [hp]
  · rw [has_cloud, List.countP_append]
    cases hp : onCloud p
    · simp [hp, h.partitions_cloud]
    · simp only [if_true]; rw [wrap_add h.partitions_cloud]; simp [hp]
  · exact file _ _ h.regions
  · rw [total_snoc]
    dsimp only
    by_cases hs : p.state = 0
    · rw [if_neg (by simp [hs]), wrap_addw h.events]; simp [inFile, hs, inHeap]
    · rw [if_pos hs, wrap_add2 h.events]; simp [inFile, hs, inHeap]
  · rw [total_snoc]
    exact (wrap_addw h.events_heap).trans (by simp [inHeap])
  · exact file _ _ h.size
  · exact file _ _ h.size_uncompressed
  · rw [total_snoc, heap_size]
    exact wrap_addw h.size_heap
  · simp only [List.map_append, List.map_cons, List.map_nil, List.foldl_append, List.foldl_cons, List.foldl_nil]
    rw [← h.min]
    show _ = min s.min p.min
    rw [Nat.min_def]
    by_cases hm : p.min < s.min
    · rw [if_pos hm, if_neg (by omega)]
    · rw [if_neg hm, if_pos (by omega)]
  · simp only [List.map_append, List.map_cons, List.map_nil, List.foldl_append, List.foldl_cons, List.foldl_nil]
    rw [← h.max]
    show _ = max s.max p.max
    rw [Nat.max_def]
    by_cases hm : p.max > s.max
    · rw [if_pos hm, if_pos (by omega)]
    · rw [if_neg hm]; by_cases h2 : s.max ≤ p.max
      · rw [if_pos h2]; omega
      · rw [if_neg h2]

theorem after_init (m : Mm) : After m [] stats_init := by
  constructor <;> rfl

theorem after_fold {w : World} {ps : List Show.Part} {s : Stats} (h : After w.mem ps s) (l : List Nat) :
    After w.mem (ps ++ l.map w.part) (l.foldl (fun st a => stats_add w.mem st (w.part a)) s) := by
  induction l generalizing ps s with
  | nil => simpa using h
  | cons a l ih =>
    have := ih (after_add h (w.part a))
    simpa using this

theorem foldl_min (l : List Nat) (h : ∀ n ∈ l, n < 18446744073709551616) :
    match l.min? with
    | some n => l.foldl Nat.min 18446744073709551615 = n
    | none => l = [] := by
  cases l with
  | nil => rfl
  | cons a l =>
    show List.foldl Nat.min (Nat.min 18446744073709551615 a) l = List.foldl min a l
    have : Nat.min 18446744073709551615 a = a := Nat.min_eq_right (by have := h a (by simp); omega)
    rw [this]

theorem foldl_max (l : List Nat) :
    match l.max? with
    | some n => l.foldl Nat.max 0 = n
    | none => l = [] := by
  cases l with
  | nil => rfl
  | cons a l =>
    show List.foldl Nat.max (Nat.max 0 a) l = List.foldl max a l
    have : Nat.max 0 a = a := Nat.max_eq_right (by omega)
    rw [this]

theorem stats_ok {m : Mm} {ps : List Show.Part} {s : Stats} (h : After m ps s) (hl : ps.length < 2147483648)
    (hi : ∀ p ∈ ps, p.min < 18446744073709551616) : stats_show s = enc (statsDoc m ps) := by
  have hmin : encode_integer (if s.partitions = 0 then 0 else s.min) =
      enc (.int (numberOr 0 (ps.map (·.min)).min?)) := by
    have := foldl_min (ps.map (·.min)) (by
      intro n hn; obtain ⟨p, hp, rfl⟩ := List.mem_map.1 hn; exact hi p hp)
    have hp := h.partitions
    have hm := h.min
    have hw : wrapU64 ps.length = ps.length := by unfold wrapU64; omega
    rw [hw] at hp
    cases hx : (ps.map (·.min)).min? with
    | none =>
      rw [hx] at this
      have hps : ps = [] := by simpa using this
      rw [if_pos (by rw [hp, hps]; rfl)]; rfl
    | some n =>
      rw [hx] at this
      have hps : ps ≠ [] := by rintro rfl; simp at hx
      rw [if_neg (by rw [hp]; simpa using hps), hm]
      dsimp only at this ⊢
      rw [this]; rfl
  have hmax : encode_integer s.max = enc (.int (numberOr 0 (ps.map (·.max)).max?)) := by
    have := foldl_max (ps.map (·.max))
    cases hx : (ps.map (·.max)).max? with
    | none =>
      rw [hx] at this
      have hps : ps = [] := by simpa using this
      rw [h.max, hps]; rfl
    | some n =>
      rw [hx] at this
      dsimp only at this ⊢
      rw [h.max, this]; rfl
  unfold stats_show statsDoc
  rw [enc_obj]
  simp only [List.length_cons, List.length_nil, List.flatMap_cons, List.flatMap_nil, List.append_nil, List.append_assoc]
  rw [hmin, hmax, h.partitions, h.partitions_local, h.partitions_cloud, h.regions, h.events, h.events_heap, h.size,
    h.size_uncompressed, h.size_heap]
  simp only [enc_int_wrap]
  rfl

theorem storage_ok {w : World} {s : Storage} (hl : s.parts.length < 2147483648)
    (hi : ∀ a ∈ s.parts, (w.part a).min < 18446744073709551616) (debug : Bool) :
    storage_show w s debug = enc (storageDoc w s debug) := by
  have h := after_fold (after_init w.mem) s.parts
  unfold storage_show storageDoc
  dsimp only
  rw [enc_obj, source_ok, stats_ok h (by simpa using hl) (by
    intro p hp; simp only [List.nil_append, List.mem_map] at hp; obtain ⟨a, ha, rfl⟩ := hp; exact hi a ha)]
  simp only [List.length_cons, List.length_nil, List.flatMap_cons, List.flatMap_nil, List.append_nil, List.append_assoc,
    List.nil_append]

theorem source_of_ok {l : List Storage} (hu : (l.map (·.uid)).Nodup) {s : Storage} (hs : s ∈ l) : source_of l s.uid = .ok s.source := by
  induction l with
  | nil => simp at hs
  | cons c l ih =>
    simp only [List.map_cons, List.nodup_cons] at hu
    simp only [source_of]
    rcases List.mem_cons.1 hs with rfl | hs
    · rw [if_pos rfl]
    · rw [if_neg (fun e => hu.1 (by rw [e]; exact List.mem_map.2 ⟨s, hs, rfl⟩))]
      exact ih hu.2 hs

theorem part_ok {w : World} (hu : (w.storages.map (·.uid)).Nodup) {p : Show.Part} {debug : Bool} {x : Val}
    (h : PartDoc w debug p x) : stats_show_part w p debug = .ok (enc x) := by
  obtain ⟨s, hs, he, rfl⟩ := h
  have a := after_add (after_init w.mem) p
  simp only [List.nil_append] at a
  have t : ∀ f : Show.Part → Int, total [p] f = f p := by intro f; simp [total]
  unfold stats_show_part
  rw [← he, source_of_ok hu hs, Res.bind_ok]
  congr 1
  unfold partDoc
  rw [enc_obj, a.events, a.events_heap, a.regions, a.size, a.size_uncompressed, a.size_heap]
  simp only [t, enc_int_wrap, has_storage, has_cloud, index_ok]
  cases debug
  · simp only [Bool.false_eq_true, if_false, List.append_nil, List.length_cons, List.length_nil, List.flatMap_cons,
      List.flatMap_nil, List.append_assoc]
    rfl
  · simp only [if_true, List.cons_append, List.nil_append, List.length_cons, List.length_nil, List.flatMap_cons,
      List.flatMap_nil, List.append_assoc, List.append_nil]
    rfl

/-! Lookups. -/

theorem cloud_find {l : List CloudConfig} (hn : (l.map (·.name)).Nodup) {c : CloudConfig} (hc : c ∈ l) :
    cloud_mgr_find l c.name = some c := by
  induction l with
  | nil => simp at hc
  | cons d l ih =>
    simp only [List.map_cons, List.nodup_cons] at hn
    simp only [cloud_mgr_find]
    rcases List.mem_cons.1 hc with rfl | hc
    · rw [if_pos rfl]
    · rw [if_neg (fun e => hn.1 (by rw [e]; exact List.mem_map.2 ⟨c, hc, rfl⟩))]
      exact ih hn.2 hc

theorem cloud_none {l : List CloudConfig} {n : Bytes} (h : ∀ c ∈ l, c.name ≠ n) : cloud_mgr_find l n = none := by
  induction l with
  | nil => rfl
  | cons d l ih =>
    simp only [cloud_mgr_find]
    rw [if_neg (h d (by simp))]
    exact ih (fun c hc => h c (by simp [hc]))

theorem storage_find {l : List Storage} (hn : (l.map (·.source.name)).Nodup) {c : Storage} (hc : c ∈ l) :
    storage_mgr_find l c.source.name = some c := by
  induction l with
  | nil => simp at hc
  | cons d l ih =>
    simp only [List.map_cons, List.nodup_cons] at hn
    simp only [storage_mgr_find]
    rcases List.mem_cons.1 hc with rfl | hc
    · rw [if_pos rfl]
    · rw [if_neg (fun e => hn.1 (by rw [e]; exact List.mem_map.2 ⟨c, hc, rfl⟩))]
      exact ih hn.2 hc

theorem storage_none {l : List Storage} {n : Bytes} (h : ∀ c ∈ l, c.source.name ≠ n) : storage_mgr_find l n = none := by
  induction l with
  | nil => rfl
  | cons d l ih =>
    simp only [storage_mgr_find]
    rw [if_neg (h d (by simp))]
    exact ih (fun c hc => h c (by simp [hc]))

theorem var_find {l : List Config.Var} (hn : (l.map (·.name)).Nodup) {v : Config.Var} (hv : v ∈ l) :
    Config.find l v.name = some v := by
  induction l with
  | nil => simp at hv
  | cons d l ih =>
    simp only [List.map_cons, List.nodup_cons] at hn
    simp only [Config.find]
    rcases List.mem_cons.1 hv with rfl | hv
    · rw [if_pos rfl]
    · rw [if_neg (fun e => hn.1 (by rw [e]; exact List.mem_map.2 ⟨v, hv, rfl⟩))]
      exact ih hn.2 hv

theorem var_none {l : List Config.Var} {n : Bytes} (h : ∀ v ∈ l, v.name ≠ n) : Config.find l n = none := by
  induction l with
  | nil => rfl
  | cons d l ih =>
    simp only [Config.find]
    rw [if_neg (h d (by simp))]
    exact ih (fun c hc => h c (by simp [hc]))

set_option maxRecDepth 100000 in
theorem table_names {cfg : List Config.Var} (h : C35.Table cfg) : (cfg.map (·.name)).Nodup := by
  have e : cfg.map (·.name) = (cfg.map (fun v => (v.name, v.type, v.flags))).map (·.1) := by rw [List.map_map]; rfl
  rw [e, h]
  decide +kernel

set_option maxRecDepth 100000 in
/-- No variable is secret. -/
theorem table_secret {cfg : List Config.Var} (h : C35.Table cfg) {v : Config.Var} (hv : v ∈ cfg) : v.is 8 = false := by
  have hm : (v.name, v.type, v.flags) ∈ Config.prepare.map (fun v => (v.name, v.type, v.flags)) := by
    rw [← h]; exact List.mem_map.2 ⟨v, hv, rfl⟩
  have all : ∀ e ∈ Config.prepare.map (fun v => (v.name, v.type, v.flags)), ¬ e.2.2 &&& 8 > 0 := by decide +kernel
  have := all _ hm
  simpa [Config.Var.is] using this

theorem var_encodes {v : Config.Var} {x : Val} (hi : v.int < 18446744073709551616) (h : VarDoc v x) :
    Encodes x (Config.encode v) := by
  unfold VarDoc at h
  unfold Config.encode
  cases ht : v.type with
  | bool => rw [ht] at h; dsimp only at h; subst h; exact rfl
  | int =>
    rw [ht] at h; dsimp only at h; subst h
    have e : v.int = wrapU64 (toS64 v.int) := by unfold toS64 wrapS64 wrapU64; omega
    simp only [Encodes]
    rw [← e]
  | string => rw [ht] at h; dsimp only at h; subst h; exact rfl
  | data =>
    rw [ht] at h; dsimp only at h ⊢
    rcases h with ⟨h, rfl⟩ | h
    · rw [h]; exact rfl
    · have : v.str.isEmpty = false := by
        cases hs : v.str with
        | cons a l => rfl
        | nil =>
          exfalso
          rw [hs] at h
          cases x with
          | null => simp [Encodes, data_write_null] at h
          | bool b => cases b <;> simp [Encodes, data_write_bool] at h
          | int i =>
            obtain ⟨t, r, e, _⟩ := write_integer_head (wrapU64 i)
            simp [Encodes, e] at h
          | real d =>
            simp only [Encodes, data_write_real] at h
            split at h <;> simp at h
          | str s =>
            obtain ⟨t, r, e, _⟩ := writeCount_head 114 s.length (by omega)
            simp [Encodes, data_write_raw, e] at h
          | arr l =>
            obtain ⟨a, b, ha, _, e⟩ := h
            have e := (List.append_eq_nil_iff.1 e.symm).1
            rcases ha with rfl | rfl
            · simp only [data_write_array, writeCount] at e
              split at e
              · simp at e
              · split at e
                · simp at e
                · split at e <;> simp at e
            · simp [data_write_array32] at e
          | map l =>
            obtain ⟨a, b, ha, _, e⟩ := h
            have e := (List.append_eq_nil_iff.1 e.symm).1
            rcases ha with rfl | rfl
            · simp only [data_write_map, writeCount] at e
              split at e
              · simp at e
              · split at e
                · simp at e
                · split at e <;> simp at e
            · simp [data_write_map32] at e
      rw [this]; exact h

/-! One item. -/

theorem var_int_ok {w : World} {L : List (Slice Nat)} (hw : Consistent w L) {name : String} {v : Config.Var}
    (h : Var w name v) : var_int w name = .ok v.int := by
  unfold var_int
  rw [← h.2, var_find (table_names hw.vars) h.1]

theorem wal_min {l : List Nat} (h : l.Pairwise (· < ·)) :
    encode_integer (wal_id_min l) = encode_integer (numberOr (-1) l.min?) := by
  cases l with
  | nil => rfl
  | cons a l =>
    have : (a :: l).min? = some a := by
      rw [List.min?_eq_some_iff]
      refine ⟨by simp, ?_⟩
      intro b hb
      rcases List.mem_cons.1 hb with rfl | hb
      · omega
      · have := (List.pairwise_cons.1 h).1 b hb; omega
    rw [this]; rfl

theorem wal_ok {w : World} {L : List (Slice Nat)} (hw : Consistent w L) {x : Val} (h : WalDoc w x) : wal_show w = .ok (enc x) := by
  obtain ⟨a, b, c, d, e, f, ha, hb, hc, hd, he, hf, rfl⟩ := h
  unfold wal_show
  rw [var_int_ok hw ha, Res.bind_ok, var_int_ok hw hb, Res.bind_ok, var_int_ok hw hc, Res.bind_ok, var_int_ok hw hd, Res.bind_ok,
    var_int_ok hw he, Res.bind_ok, var_int_ok hw hf, Res.bind_ok, wal_min hw.wal, enc_obj]
  simp only [List.length_cons, List.length_nil, List.flatMap_cons, List.flatMap_nil, List.append_nil, List.append_assoc]
  rfl

theorem each_nil {α β : Type} {R : α → β → Prop} {l : List β} (h : Each R [] l) : l = [] := by
  cases l with
  | nil => rfl
  | cons a l => simp [Each] at h

theorem each_cons {α β : Type} {R : α → β → Prop} {a : α} {l : List α} {m : List β} (h : Each R (a :: l) m) :
    ∃ b r, m = b :: r ∧ R a b ∧ Each R l r := by
  cases m with
  | nil => simp [Each] at h
  | cons b r => exact ⟨b, r, rfl, h⟩

theorem parts_ok {w : World} (hu : (w.storages.map (·.uid)).Nodup) (st : Option Storage) (debug : Bool) (L : List (Slice Nat)) :
    ∀ xs, Each (PartDoc w debug)
      ((L.map fun s => w.part s.val).filter fun p => match st with | some st => p.source == st.uid | none => true) xs →
      show_parts w st debug L = .ok (xs.length, xs.flatMap enc) := by
  induction L with
  | nil => intro xs h; have := each_nil h; subst this; rfl
  | cons s L ih =>
    intro xs h
    simp only [show_parts]
    rw [List.map_cons, List.filter_cons] at h
    cases st with
    | none =>
      simp only [if_true] at h
      obtain ⟨x, r, rfl, hx, hr⟩ := each_cons h
      simp only [Bool.false_eq_true, if_false]
      rw [part_ok hu hx, Res.bind_ok, ih r hr, Res.bind_ok]
      rfl
    | some st =>
      simp only at h ⊢
      by_cases hs : (w.part s.val).source = st.uid
      · rw [if_pos (by simpa using hs)] at h
        obtain ⟨x, r, rfl, hx, hr⟩ := each_cons h
        rw [if_neg (by simpa using hs)]
        rw [part_ok hu hx, Res.bind_ok, ih r hr, Res.bind_ok]
        rfl
      · rw [if_neg (by simpa using hs)] at h
        rw [if_pos (by simpa using hs)]
        exact ih xs h

theorem enc_encodes_items (xs : List Val) : EncodesAll (items xs) (xs.flatMap enc) := by
  rw [← enc_items]; exact encodesAll_enc _

theorem slices_ok {w : World} {L : List (Slice Nat)} (hw : Consistent w L) :
    (if w.map.count = 0 then [] else Rb.forward w.map.count w.map.tree) = L := by
  split
  · next h => rw [hw.count] at h; exact (List.length_eq_zero_iff.1 h).symm
  · rw [C02.forward_eq _ _ (by rw [hw.list, hw.count]; exact Nat.le_refl _), hw.list]

theorem partitions_ok {w : World} {L : List (Slice Nat)} (hw : Consistent w L) (st : Option Storage) (debug : Bool) {xs : List Val}
    (h : Each (PartDoc w debug)
      ((L.map fun s => w.part s.val).filter fun p => match st with | some st => p.source == st.uid | none => true) xs) :
    ∃ bs, engine_show_partitions w st debug = .ok bs ∧ Encodes (.arr (items xs)) bs := by
  unfold engine_show_partitions
  rw [slices_ok hw]
  dsimp only
  rw [parts_ok hw.uids st debug L xs h, Res.bind_ok]
  exact ⟨_, rfl, _, _, .inr (by rw [len_items]), enc_encodes_items xs, rfl⟩

theorem config_ok {w : World} {L : List (Slice Nat)} (hw : Consistent w L) (l : List Config.Var) (hl : ∀ v ∈ l, v ∈ w.vars) :
    ∀ xs, Each VarDoc (l.filter Listed) xs →
      EncodesMap (entries (((l.filter Listed).map (·.name)).zip xs))
        (l.flatMap fun v => if v.is 4 || v.is 8 then [] else data_write_raw v.name ++ Config.encode v) := by
  induction l with
  | nil => intro xs h; have := each_nil h; subst this; rfl
  | cons v l ih =>
    intro xs h
    have hv := hw.ints v (hl v (by simp))
    have e4 : v.is 4 = v.flags.testBit 2 := and_bit v.flags 2
    have e8 : v.is 8 = v.flags.testBit 3 := and_bit v.flags 3
    rw [List.flatMap_cons, e4, e8]
    rw [List.filter_cons] at h ⊢
    by_cases hL : Listed v = true
    · rw [if_pos hL] at h ⊢
      obtain ⟨x, r, rfl, hx, hr⟩ := each_cons h
      have : (v.flags.testBit 2 || v.flags.testBit 3) = false := by simpa [Listed] using hL
      rw [this]
      refine ⟨Config.encode v, _, var_encodes hv hx, ih (fun v hv => hl v (by simp [hv])) r hr, ?_⟩
      simp
    · rw [if_neg hL] at h ⊢
      have : (v.flags.testBit 2 || v.flags.testBit 3) = true := by
        unfold Listed at hL
        cases hb : (v.flags.testBit 2 || v.flags.testBit 3) with
        | true => rfl
        | false => rw [hb] at hL; exact absurd rfl hL
      rw [this]
      exact ih (fun v hv => hl v (by simp [hv])) xs h

theorem visible_eq (v : Config.Var) : visible v = Listed v := by
  have e4 : v.is 4 = v.flags.testBit 2 := and_bit v.flags 2
  have e8 : v.is 8 = v.flags.testBit 3 := and_bit v.flags 3
  unfold visible Listed
  rw [e4, e8, Bool.or_comm]

theorem each_length {α β : Type} {R : α → β → Prop} {l : List α} : ∀ {m : List β}, Each R l m → l.length = m.length := by
  induction l with
  | nil => intro m h; rw [each_nil h]; rfl
  | cons a l ih => intro m h; obtain ⟨b, r, rfl, _, hr⟩ := each_cons h; simp [ih hr]

/-- The partition asked for. -/
theorem partition_ok {w : World} {L : List (Slice Nat)} (hw : Consistent w L) {n : Nat} (hn : n < 9223372036854775808)
    (hL : ∀ s ∈ L, s.max < 9223372036854775808) (hN : Near L n) :
    ∃ r, w.map.match n = .ok r ∧ IsMatch L n (r.map (·.v)) := by
  obtain ⟨r, h1, h2, _⟩ := Mapping.match_lists (m := w.map) (L := L) ⟨hw.list, ⟨hw.apart, fun s hs => ⟨(hw.range s hs).1, hL s hs⟩⟩, hw.count⟩ n hn hN
  exact ⟨r, h1, h2⟩

theorem covers_unique {L : List (Slice Nat)} (h : L.Pairwise (fun a b => a.max < b.min)) (h2 : ∀ s ∈ L, s.min ≤ s.max) {s t : Slice Nat} {n : Nat} (hs : s ∈ L) (ht : t ∈ L)
    (cs : Covers s n) (ct : Covers t n) : s = t := by
  induction L with
  | nil => simp at hs
  | cons a L ih =>
    obtain ⟨h1, h3⟩ := List.pairwise_cons.1 h
    unfold Covers at *
    rcases List.mem_cons.1 hs with e1 | hs' <;> rcases List.mem_cons.1 ht with e2 | ht'
    · exact e1.trans e2.symm
    · have := h1 t ht'; rw [← e1] at this; omega
    · have := h1 s hs'; rw [← e2] at this; omega
    · exact ih h3 (fun s hs => h2 s (by simp [hs])) hs' ht'

/-- What the parser makes sure of. -/
def Formed (op : Parse.ShowOp) : Prop :=
  (op.type = .partition → ∃ n, op.name = .int n) ∧
  (op.type = .name → ∃ n, op.name = .name n ∨ ∃ e, op.name = .string n e)

theorem op_ok {w : World} {L : List (Slice Nat)} (hw : Consistent w L) (op : Parse.ShowOp) (hf : Fits L op) {x : Val}
    (h : Answer w L op (some x)) : ∃ bs, execute_show_op w op = .ok bs ∧ Encodes x bs := by
  obtain ⟨type, name, debug⟩ := op
  unfold execute_show_op
  cases type with
  | memory =>
    simp only [Answer, Option.some.injEq] at h
    subst h
    exact ⟨_, rfl, by rw [memory_ok hw.pages hw.page]; exact encodes_enc _⟩
  | wal =>
    simp only [Answer, Option.some.injEq] at h
    obtain ⟨x, hx, rfl⟩ := h
    exact ⟨_, wal_ok hw hx, encodes_enc _⟩
  | clouds =>
    have all : ∃ bs, cloud_mgr_show w.clouds none = .ok bs ∧
        Encodes (.map (entries (w.clouds.map fun c => (c.name, cloudDoc c)))) bs := by
      refine ⟨_, rfl, ?_⟩
      have := encodes_enc (.map (entries (w.clouds.map fun c => (c.name, cloudDoc c))))
      simp only [enc, len_entries, List.length_map, enc_entries, List.flatMap_map] at this
      simp only [cloud_ok]
      exact this
    cases name
    case name n =>
      simp only [Answer, Option.some.injEq, reduceCtorEq, and_false, or_false] at h
      obtain ⟨c, hc, hn, rfl⟩ := h
      simp only [name_of, cloud_mgr_show]
      rw [show n.map UInt8.ofNat = c.name from hn.symm, cloud_find hw.clouds hc]
      exact ⟨_, rfl, by rw [cloud_ok]; exact encodes_enc _⟩
    all_goals
      simp only [Answer, Option.some.injEq] at h
      subst h
      exact all
  | storages =>
    have all : ∃ bs, Res.ok (storage_mgr_show w debug) = .ok bs ∧
        Encodes (.map (entries (w.storages.map fun s => (s.source.name, storageDoc w s debug)))) bs := by
      refine ⟨_, rfl, ?_⟩
      have := encodes_enc (.map (entries (w.storages.map fun s => (s.source.name, storageDoc w s debug))))
      simp only [enc, len_entries, List.length_map, enc_entries, List.flatMap_map] at this
      unfold storage_mgr_show
      rw [show (w.storages.flatMap fun s => data_write_raw s.source.name ++ storage_show w s debug) =
        w.storages.flatMap fun s => data_write_raw s.source.name ++ enc (storageDoc w s debug) from by
          rw [List.flatMap_def, List.flatMap_def]
          congr 1
          apply List.map_congr_left
          intro s hs
          rw [storage_ok (hw.lists s hs) (hw.ids s hs)]]
      exact this
    cases name
    case name n =>
      simp only [Answer, Option.some.injEq, reduceCtorEq, and_false, or_false] at h
      obtain ⟨c, hc, hn, rfl⟩ := h
      simp only [name_of, engine_show]
      rw [show n.map UInt8.ofNat = c.source.name from hn.symm, storage_find hw.storages hc]
      exact ⟨_, rfl, by rw [storage_ok (hw.lists c hc) (hw.ids c hc)]; exact encodes_enc _⟩
    all_goals
      simp only [Answer, Option.some.injEq] at h
      subst h
      exact all
  | partition =>
    cases name
    case int n =>
      simp only [Answer, Option.some.injEq, reduceCtorEq, and_false, or_false] at h
      obtain ⟨s, hs, hc, x, hx, rfl⟩ := h
      obtain ⟨f1, f2, f3⟩ := hf rfl n rfl
      obtain ⟨r, h1, h2⟩ := partition_ok hw f1 f2 f3
      simp only [engine_show, engine_show_partition]
      rw [show wrapU64 n = n from by unfold wrapU64; omega, h1, Res.bind_ok]
      cases r with
      | none => exact absurd hc (h2 s hs)
      | some y =>
        simp only [Option.map_some, IsMatch] at h2
        have := covers_unique hw.apart (fun s hs => (hw.range s hs).1) h2.1 hs h2.2 hc
        dsimp only
        rw [this, part_ok hw.uids hx]
        exact ⟨_, rfl, encodes_enc _⟩
    all_goals simp [Answer] at h
  | partitions =>
    cases name
    case name n =>
      simp only [Answer, Option.some.injEq, reduceCtorEq, and_false, or_false] at h
      obtain ⟨c, hc, hn, xs, hx, rfl⟩ := h
      simp only [name_of, engine_show]
      rw [show n.map UInt8.ofNat = c.source.name from hn.symm, storage_find hw.storages hc]
      exact partitions_ok hw (some c) debug hx
    all_goals
      simp only [Answer, Option.some.injEq] at h
      obtain ⟨xs, hx, rfl⟩ := h
      exact partitions_ok hw none debug (by rw [List.filter_eq_self.2 (fun _ _ => rfl)]; exact hx)
  | pipeline =>
    simp only [Answer, Option.some.injEq] at h
    subst h
    refine ⟨_, rfl, ?_⟩
    have := encodes_enc (.arr (items (w.tiers.map tierDoc)))
    simp only [enc, len_items, List.length_map, enc_items, List.flatMap_map] at this
    unfold pipeline_show
    rw [show w.tiers.flatMap TierConfig.write = w.tiers.flatMap fun t => enc (tierDoc t) from by
      rw [List.flatMap_def, List.flatMap_def]
      congr 1
      apply List.map_congr_left
      intro t _
      exact tier_ok t]
    exact this
  | config =>
    simp only [Answer, Option.some.injEq] at h
    obtain ⟨xs, hx, rfl⟩ := h
    refine ⟨_, rfl, _, _, .inl ?_, config_ok hw w.vars (fun v hv => hv) xs hx, rfl⟩
    have e := each_length hx
    rw [len_entries, List.length_zip, List.length_map, ← e, Nat.min_self, show visible = Listed from funext visible_eq]
  | name =>
    obtain ⟨n, hn, h⟩ := h
    simp only [Option.some.injEq, reduceCtorEq, and_false, or_false] at h
    obtain ⟨v, hv, hvn, x, hx, rfl⟩ := h
    have e : string_of name = .ok v.name := by
      rcases hn with hn | ⟨e, hn⟩
      · simp only at hn; rw [hn, hvn]; rfl
      · simp only at hn; rw [hn, hvn]; rfl
    simp only
    rw [e, Res.bind_ok, var_find (table_names hw.vars) hv]
    simp only
    rw [table_secret hw.vars hv]
    exact ⟨_, rfl, var_encodes (hw.ints v hv) hx⟩

theorem op_none {w : World} {L : List (Slice Nat)} (hw : Consistent w L) (op : Parse.ShowOp) (hf : Fits L op)
    (h : Answer w L op none) : ∃ e, execute_show_op w op = .err e := by
  obtain ⟨type, name, debug⟩ := op
  unfold execute_show_op
  cases type with
  | memory => simp [Answer] at h
  | wal => simp [Answer] at h
  | clouds =>
    cases name
    case name n =>
      simp only [Answer, reduceCtorEq, and_false, exists_false, and_true, false_or] at h
      simp only [name_of, cloud_mgr_show]
      rw [show n.map UInt8.ofNat = Parse.str n from rfl, cloud_none h]
      exact ⟨_, rfl⟩
    all_goals simp [Answer] at h
  | storages =>
    cases name
    case name n =>
      simp only [Answer, reduceCtorEq, and_false, exists_false, and_true, false_or] at h
      simp only [name_of, engine_show]
      rw [show n.map UInt8.ofNat = Parse.str n from rfl, storage_none h]
      exact ⟨_, rfl⟩
    all_goals simp [Answer] at h
  | partition =>
    cases name
    case int n =>
      simp only [Answer, reduceCtorEq, and_false, exists_false, and_true, false_or] at h
      obtain ⟨f1, f2, f3⟩ := hf rfl n rfl
      obtain ⟨r, h1, h2⟩ := partition_ok hw f1 f2 f3
      simp only [engine_show, engine_show_partition]
      rw [show wrapU64 n = n from by unfold wrapU64; omega, h1, Res.bind_ok]
      cases r with
      | none => exact ⟨_, rfl⟩
      | some y =>
        simp only [Option.map_some, IsMatch] at h2
        exact absurd h2.2 (h _ h2.1)
    all_goals simp [Answer] at h
  | partitions =>
    cases name
    case name n =>
      simp only [Answer, reduceCtorEq, and_false, exists_false, and_true, false_or] at h
      simp only [name_of, engine_show]
      rw [show n.map UInt8.ofNat = Parse.str n from rfl, storage_none h]
      exact ⟨_, rfl⟩
    all_goals simp [Answer] at h
  | pipeline => simp [Answer] at h
  | config => simp [Answer] at h
  | name =>
    obtain ⟨n, hn, h⟩ := h
    simp only [reduceCtorEq, and_false, exists_false, and_true, false_or] at h
    have e : string_of name = .ok (Parse.str n) := by
      rcases hn with hn | ⟨e, hn⟩
      · simp only at hn; rw [hn]; rfl
      · simp only at hn; rw [hn]; rfl
    simp only
    rw [e, Res.bind_ok, var_none h]
    exact ⟨_, rfl⟩

theorem parts_any {w : World} {L : List (Slice Nat)} (hw : Consistent w L) (debug : Bool) (l : List (Slice Nat)) (hl : ∀ s ∈ l, s ∈ L)
    (f : Show.Part → Bool) : ∃ xs, Each (PartDoc w debug) ((l.map fun s => w.part s.val).filter f) xs := by
  induction l with
  | nil => exact ⟨[], trivial⟩
  | cons s l ih =>
    obtain ⟨xs, h⟩ := ih (fun s hs => hl s (by simp [hs]))
    rw [List.map_cons, List.filter_cons]
    split
    · obtain ⟨st, hs, he⟩ := hw.parts s (hl s (by simp))
      exact ⟨partDoc w.mem (w.part s.val) st.source.name debug :: xs, ⟨st, hs, he, rfl⟩, h⟩
    · exact ⟨xs, h⟩

/-- A formed item is answered or refused. -/
theorem op_any {w : World} {L : List (Slice Nat)} (hw : Consistent w L) (op : Parse.ShowOp) (hF : Formed op) (hf : Fits L op) :
    (∃ bs, execute_show_op w op = .ok bs) ∨ ∃ e, execute_show_op w op = .err e := by
  have yes : (∃ x, Answer w L op (some x)) → (∃ bs, execute_show_op w op = .ok bs) ∨ ∃ e, execute_show_op w op = .err e := by
    rintro ⟨x, h⟩
    obtain ⟨bs, h, _⟩ := op_ok hw op hf h
    exact .inl ⟨bs, h⟩
  have no : Answer w L op none → (∃ bs, execute_show_op w op = .ok bs) ∨ ∃ e, execute_show_op w op = .err e :=
    fun h => .inr (op_none hw op hf h)
  obtain ⟨type, name, debug⟩ := op
  cases type with
  | memory => exact yes ⟨_, rfl⟩
  | wal =>
    have var : ∀ {name}, cstr name ∈ (Config.prepare.map (fun v => (v.name, v.type, v.flags))).map (·.1) → ∃ v, Var w name v := by
      intro name h
      rw [← hw.vars, List.map_map] at h
      obtain ⟨v, hv, e⟩ := List.mem_map.1 h
      exact ⟨v, hv, e⟩
    obtain ⟨a, ha⟩ := var (name := "wal") (by decide +kernel)
    obtain ⟨b, hb⟩ := var (name := "wal_rotate_wm") (by decide +kernel)
    obtain ⟨c, hc⟩ := var (name := "wal_sync_on_rotate") (by decide +kernel)
    obtain ⟨d, hd⟩ := var (name := "wal_sync_on_write") (by decide +kernel)
    obtain ⟨e, he⟩ := var (name := "wal_crc") (by decide +kernel)
    obtain ⟨f, hf⟩ := var (name := "lsn") (by decide +kernel)
    exact yes ⟨_, _, ⟨a, b, c, d, e, f, ha, hb, hc, hd, he, hf, rfl⟩, rfl⟩
  | clouds =>
    cases name
    case name n =>
      by_cases h : ∃ c ∈ w.clouds, c.name = Parse.str n
      · obtain ⟨c, hc, hn⟩ := h
        exact yes ⟨_, .inl ⟨c, hc, hn, rfl⟩⟩
      · exact no (.inr ⟨fun c hc e => h ⟨c, hc, e⟩, rfl⟩)
    all_goals exact yes ⟨_, rfl⟩
  | storages =>
    cases name
    case name n =>
      by_cases h : ∃ c ∈ w.storages, c.source.name = Parse.str n
      · obtain ⟨c, hc, hn⟩ := h
        exact yes ⟨_, .inl ⟨c, hc, hn, rfl⟩⟩
      · exact no (.inr ⟨fun c hc e => h ⟨c, hc, e⟩, rfl⟩)
    all_goals exact yes ⟨_, rfl⟩
  | partition =>
    obtain ⟨n, hn⟩ := hF.1 rfl
    simp only at hn
    subst hn
    by_cases h : ∃ s ∈ L, Covers s n
    · obtain ⟨s, hs, hc⟩ := h
      obtain ⟨st, h1, h2⟩ := hw.parts s hs
      exact yes ⟨_, .inl ⟨s, hs, hc, _, ⟨st, h1, h2, rfl⟩, rfl⟩⟩
    · exact no (.inr ⟨fun s hs hc => h ⟨s, hs, hc⟩, rfl⟩)
  | partitions =>
    cases name
    case name n =>
      by_cases h : ∃ c ∈ w.storages, c.source.name = Parse.str n
      · obtain ⟨c, hc, hn⟩ := h
        obtain ⟨xs, hx⟩ := parts_any hw debug L (fun s hs => hs) (fun p => p.source == c.uid)
        exact yes ⟨_, .inl ⟨c, hc, hn, xs, hx, rfl⟩⟩
      · exact no (.inr ⟨fun c hc e => h ⟨c, hc, e⟩, rfl⟩)
    all_goals
      obtain ⟨xs, hx⟩ := parts_any hw debug L (fun s hs => hs) (fun _ => true)
      rw [List.filter_eq_self.2 (fun _ _ => rfl)] at hx
      exact yes ⟨_, xs, hx, rfl⟩
  | pipeline => exact yes ⟨_, rfl⟩
  | config => exact .inl ⟨_, rfl⟩
  | name =>
    obtain ⟨n, hn⟩ := hF.2 rfl
    have e : string_of name = .ok (Parse.str n) := by
      rcases hn with hn | ⟨e, hn⟩
      · simp only at hn; rw [hn]; rfl
      · simp only at hn; rw [hn]; rfl
    unfold execute_show_op
    simp only
    rw [e, Res.bind_ok]
    cases Config.find w.vars (Parse.str n) with
    | none => exact .inr ⟨_, rfl⟩
    | some v => cases hv : v.is 8 <;> simp [hv]

/-! The whole command. -/

theorem ops_ok {w : World} {L : List (Slice Nat)} (hw : Consistent w L) (ops : List Parse.ShowOp) :
    (∀ op ∈ ops, Fits L op) → ∀ xs, Each (fun op x => Answer w L op (some x)) ops xs →
      ∃ bs, execute_show_ops w ops = .ok bs ∧ EncodesAll (items xs) bs := by
  induction ops with
  | nil => intro _ xs h; rw [each_nil h]; exact ⟨[], rfl, rfl⟩
  | cons op ops ih =>
    intro hf xs h
    obtain ⟨x, r, rfl, hx, hr⟩ := each_cons h
    obtain ⟨b, h1, h2⟩ := op_ok hw op (hf op (by simp)) hx
    obtain ⟨bs, h3, h4⟩ := ih (fun op ho => hf op (by simp [ho])) r hr
    exact ⟨b ++ bs, by simp only [execute_show_ops, h1, Res.bind_ok, h3], b, bs, h2, h4, rfl⟩

theorem ops_err {w : World} {L : List (Slice Nat)} (hw : Consistent w L) (ops : List Parse.ShowOp) :
    (∀ op ∈ ops, Formed op ∧ Fits L op) → (∃ op ∈ ops, Answer w L op none) → ∃ e, execute_show_ops w ops = .err e := by
  induction ops with
  | nil => rintro _ ⟨op, ho, _⟩; simp at ho
  | cons op ops ih =>
    rintro hf ⟨o, ho, hn⟩
    obtain ⟨f1, f2⟩ := hf op (by simp)
    rcases op_any hw op f1 f2 with ⟨b, hb⟩ | ⟨e, he⟩
    · rcases List.mem_cons.1 ho with rfl | ho
      · obtain ⟨e, he⟩ := op_none hw o f2 hn
        rw [hb] at he; simp at he
      · obtain ⟨e, he⟩ := ih (fun op h => hf op (by simp [h])) ⟨o, ho, hn⟩
        exact ⟨e, by simp only [execute_show_ops, hb, Res.bind_ok, he, Res.bind_err]⟩
    · exact ⟨e, by simp only [execute_show_ops, he, Res.bind_err]⟩

theorem formed_of {op : Parse.ShowOp} {l : List C58.Item} (h : C58.ShowOps1 op l) : Formed op := by
  cases h <;> simp [Formed, C58.token]

theorem formed_all {ops : List Parse.ShowOp} {l : List C58.Item} (h : C58.ShowOps ops l) :
    ops ≠ [] ∧ ∀ op ∈ ops, Formed op := by
  induction h with
  | last h => exact ⟨by simp, by simpa using formed_of h⟩
  | more h _ ih => exact ⟨by simp, by simpa using ⟨formed_of h, ih.2⟩⟩

theorem formed {env : Parse.Env} {text : List Nat} {ops : List Parse.ShowOp} (h : Parse.parse env text = .ok (.show ops)) :
    ops ≠ [] ∧ ∀ op ∈ ops, Formed op := by
  obtain ⟨items, _, h⟩ := C58.parse_code.1 h
  cases h with
  | show_ _ h => exact formed_all h

theorem show_encodes {w : World} {L : List (Slice Nat)} (hw : Consistent w L) {ops : List Parse.ShowOp} (hne : ops ≠ [])
    (hf : ∀ op ∈ ops, Fits L op) {xs : List Val} {y : Val} (h : Each (fun op x => Answer w L op (some x)) ops xs)
    (hy : document xs y) :
    ∃ bs, execute_show_ops w ops = .ok bs ∧ Encodes y ((if ops.length > 1 then data_write_array ops.length else []) ++ bs) := by
  obtain ⟨bs, h1, h2⟩ := ops_ok hw ops hf xs h
  have e := each_length h
  refine ⟨bs, h1, ?_⟩
  match xs, hy, h2, e with
  | [], _, _, e => exact absurd (List.length_eq_zero_iff.1 e) hne
  | [x], hy, h2, e =>
    simp only [document] at hy
    subst hy
    rw [if_neg (by rw [e]; simp)]
    obtain ⟨b1, b2, g1, g2, rfl⟩ := h2
    simp only [items, EncodesAll] at g2
    subst g2
    simpa using g1
  | x :: x' :: r, hy, h2, e =>
    simp only [document] at hy
    subst hy
    rw [if_pos (by rw [e]; simp)]
    exact ⟨_, bs, .inl (by rw [len_items, e]), h2, rfl⟩

/-! A test for clean documents. -/

def cleanStr (s : Bytes) : Bool := s.length + 5 < 2147483648 && s.all fun c => 32 ≤ c.toNat && c != 34 && c != 92

mutual
def clean : Val → Bool
  | .null => true
  | .bool _ => true
  | .int i => -9223372036854775808 ≤ i && i < 9223372036854775808
  | .real _ => false
  | .str s => cleanStr s
  | .arr l => l.len < 2147483648 && cleanAll l
  | .map l => l.len < 2147483648 && cleanMap l
def cleanAll : Vals → Bool
  | .nil => true
  | .cons v l => clean v && cleanAll l
def cleanMap : Maps → Bool
  | .nil => true
  | .cons k v l => cleanStr k && (clean v && cleanMap l)
end

theorem clean_str {s : Bytes} (h : cleanStr s = true) : CleanStr s := by
  simp only [cleanStr, Bool.and_eq_true, decide_eq_true_eq, List.all_eq_true, bne_iff_ne] at h
  exact ⟨h.1, fun c hc => ⟨(h.2 c hc).1.1, (h.2 c hc).1.2, (h.2 c hc).2⟩⟩

mutual
theorem clean_ok (v : Val) (h : clean v = true) : Clean v := by
  cases v with
  | null => trivial
  | bool b => trivial
  | int i => simpa [clean, Clean] using h
  | real d => simp [clean] at h
  | str s => exact clean_str h
  | arr l => simp only [clean, Bool.and_eq_true, decide_eq_true_eq] at h; exact ⟨h.1, clean_all l h.2⟩
  | map l => simp only [clean, Bool.and_eq_true, decide_eq_true_eq] at h; exact ⟨h.1, clean_map l h.2⟩
theorem clean_all (l : Vals) (h : cleanAll l = true) : CleanAll l := by
  cases l with
  | nil => trivial
  | cons v l => simp only [cleanAll, Bool.and_eq_true] at h; exact ⟨clean_ok v h.1, clean_all l h.2⟩
theorem clean_map (l : Maps) (h : cleanMap l = true) : CleanMap l := by
  cases l with
  | nil => trivial
  | cons k v l => simp only [cleanMap, Bool.and_eq_true] at h; exact ⟨clean_str h.1, clean_ok v h.2.1, clean_map l h.2.2⟩
end

end Verif.C64
