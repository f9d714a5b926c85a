import Verif.Spec.C63
import Verif.Proofs.Json

/-! SHOW without the secrets (used by C63). -/
namespace Verif.C63
open Data Decode Show

/-- The state without its secrets. -/
def blank (w : World) : World :=
  { w with
    clouds := w.clouds.map openCloud
    storages := w.storages.map openStorage
    vars := w.vars.map openVar }

theorem blank_alike {w w' : World} (h : Alike w w') : blank w = blank w' := by
  cases w; cases w'
  obtain ⟨h1, h2, h3, h4, h5, h6, h7, h8⟩ := h
  simp only at h1 h2 h3 h4 h5 h6 h7 h8
  subst h1 h2 h3 h4 h5
  simp [blank, h6, h7, h8]

theorem find_cloud (l : List CloudConfig) (n : Bytes) :
    cloud_mgr_find (l.map openCloud) n = (cloud_mgr_find l n).map openCloud := by
  induction l with
  | nil => rfl
  | cons c l ih =>
    simp only [List.map_cons, cloud_mgr_find]
    have : (openCloud c).name = c.name := rfl
    rw [this]
    by_cases h : c.name = n
    · rw [if_pos h, if_pos h]; rfl
    · rw [if_neg h, if_neg h]; exact ih

theorem find_storage (l : List Storage) (n : Bytes) :
    storage_mgr_find (l.map openStorage) n = (storage_mgr_find l n).map openStorage := by
  induction l with
  | nil => rfl
  | cons c l ih =>
    simp only [List.map_cons, storage_mgr_find]
    have : (openStorage c).source.name = c.source.name := rfl
    rw [this]
    by_cases h : c.source.name = n
    · rw [if_pos h, if_pos h]; rfl
    · rw [if_neg h, if_neg h]; exact ih

theorem openVar_name (v : Config.Var) : (openVar v).name = v.name := by unfold openVar; split <;> rfl
theorem openVar_int (v : Config.Var) : (openVar v).int = v.int := by unfold openVar; split <;> rfl
theorem openVar_flags (v : Config.Var) : (openVar v).flags = v.flags := by unfold openVar; split <;> rfl
theorem openVar_is (v : Config.Var) (f : Nat) : (openVar v).is f = v.is f := by
  unfold Config.Var.is; rw [openVar_flags]

theorem find_var (l : List Config.Var) (n : Bytes) :
    Config.find (l.map openVar) n = (Config.find l n).map openVar := by
  induction l with
  | nil => rfl
  | cons c l ih =>
    simp only [List.map_cons, Config.find]
    rw [openVar_name]
    by_cases h : c.name = n
    · rw [if_pos h, if_pos h]; rfl
    · rw [if_neg h, if_neg h]; exact ih

theorem find_name {l : List Config.Var} {n : Bytes} {v : Config.Var} (h : Config.find l n = some v) :
    v.name = n ∧ v ∈ l := by
  induction l with
  | nil => cases h
  | cons c l ih =>
    simp only [Config.find] at h
    by_cases hc : c.name = n
    · rw [if_pos hc] at h; cases h; exact ⟨hc, by simp⟩
    · rw [if_neg hc] at h
      exact ⟨(ih h).1, by simp [(ih h).2]⟩

theorem var_int_blank (w : World) (n : String) : var_int (blank w) n = var_int w n := by
  unfold var_int blank
  simp only [find_var]
  cases Config.find w.vars (cstr n) with
  | none => rfl
  | some v => simp [openVar_int]

theorem source_of_blank (l : List Storage) (uid : Nat) :
    (source_of (l.map openStorage) uid).bind (fun s => (.ok s.name : Res Bytes)) =
      (source_of l uid).bind (fun s => .ok s.name) := by
  induction l with
  | nil => rfl
  | cons c l ih =>
    simp only [List.map_cons, source_of]
    have : (openStorage c).uid = c.uid := rfl
    rw [this]
    by_cases h : c.uid = uid
    · rw [if_pos h, if_pos h]; rfl
    · rw [if_neg h, if_neg h]; exact ih

theorem source_of_eq (l : List Storage) (uid : Nat) (f : Bytes → Bytes) :
    (source_of (l.map openStorage) uid).bind (fun s => (.ok (f s.name) : Res Bytes)) =
      (source_of l uid).bind (fun s => .ok (f s.name)) := by
  have h := source_of_blank l uid
  have e : ∀ r : Res Source, r.bind (fun s => (.ok (f s.name) : Res Bytes)) =
      (r.bind (fun s => (.ok s.name : Res Bytes))).bind fun n => .ok (f n) := by
    intro r; cases r <;> rfl
  rw [e, e, h]

theorem stats_show_part_blank (w : World) (p : Show.Part) (debug : Bool) :
    stats_show_part (blank w) p debug = stats_show_part w p debug := by
  unfold stats_show_part
  exact source_of_eq w.storages p.source (fun name =>
    ((if debug then data_write_map 15 else data_write_map 14) ++ (
    key "min" ++ (encode_integer p.min ++ (
    key "max" ++ (encode_integer p.max ++ (
    key "events" ++ (encode_integer (stats_add w.mem stats_init p).events ++ (
    key "events_heap" ++ (encode_integer (stats_add w.mem stats_init p).events_heap ++ (
    key "regions" ++ (encode_integer (stats_add w.mem stats_init p).regions ++ (
    key "size" ++ (encode_integer (stats_add w.mem stats_init p).size ++ (
    key "size_uncompressed" ++ (encode_integer (stats_add w.mem stats_init p).size_uncompressed ++ (
    key "size_heap" ++ (encode_integer (stats_add w.mem stats_init p).size_heap ++ (
    key "created" ++ ((if debug then key "(filtered)" else encode_integer p.time_create) ++ (
    key "refreshed" ++ ((if debug then key "(filtered)" else encode_integer p.time_refresh) ++ (
    key "refreshes" ++ (encode_integer p.index.refreshes ++ (
    key "on_storage" ++ (data_write_bool (part_has p 1) ++ (
    key "on_cloud" ++ (data_write_bool (part_has p 8) ++ (
    key "storage" ++ (data_write_raw name ++
    (if debug then key "index" ++ index_show p else [])))))))))))))))))))))))))))))))

theorem show_parts_blank (w : World) (st : Option Storage) (debug : Bool) (l : List (Slice Nat)) :
    show_parts (blank w) (st.map openStorage) debug l = show_parts w st debug l := by
  induction l with
  | nil => rfl
  | cons s l ih =>
    simp only [show_parts, ih, stats_show_part_blank]
    cases st <;> rfl

theorem engine_show_blank (w : World) (op : EngineOp) (n : Option Bytes) (min : Nat) (debug : Bool) :
    engine_show (blank w) op n min debug = engine_show w op n min debug := by
  have run : ∀ st : Option Storage,
      (match op with
      | .storages =>
        match st.map openStorage with
        | some s => .ok (storage_show (blank w) s debug)
        | none => .ok (storage_mgr_show (blank w) debug)
      | .partition => engine_show_partition (blank w) min debug
      | .partitions => engine_show_partitions (blank w) (st.map openStorage) debug : Res Bytes) =
      (match op with
      | .storages =>
        match st with
        | some s => .ok (storage_show w s debug)
        | none => .ok (storage_mgr_show w debug)
      | .partition => engine_show_partition w min debug
      | .partitions => engine_show_partitions w st debug) := by
    intro st
    cases op with
    | storages =>
      cases st with
      | none =>
        simp only [Option.map_none, storage_mgr_show, blank, List.length_map, List.flatMap_map]
        rfl
      | some s => rfl
    | partition =>
      simp only [engine_show_partition]
      show (w.map.match min).bind _ = _
      congr 1
      funext x
      cases x with
      | none => rfl
      | some x => exact stats_show_part_blank w _ debug
    | partitions =>
      simp only [engine_show_partitions, show_parts_blank]
      rfl
  unfold engine_show
  cases n with
  | none => exact run none
  | some n =>
    simp only
    have e : storage_mgr_find (blank w).storages n = (storage_mgr_find w.storages n).map openStorage := find_storage _ _
    rw [e]
    cases hf : storage_mgr_find w.storages n with
    | none => rfl
    | some s => exact run (some s)

theorem secret_hidden {cfg : List Config.Var} (h : C35.Table cfg) {v : Config.Var} (hv : v ∈ cfg)
    (hs : Secret v.name) : v.is 4 = true := by
  have hm : (v.name, v.type, v.flags) ∈ Config.prepare.map (fun v => (v.name, v.type, v.flags)) := by
    rw [← h]; exact List.mem_map.2 ⟨v, hv, rfl⟩
  have all : ∀ e ∈ Config.prepare.map (fun v => (v.name, v.type, v.flags)), Secret e.1 → e.2.2 &&& 4 > 0 := by
    decide +kernel
  have := all _ hm hs
  simpa [Config.Var.is] using this

theorem config_show_blank (cfg : List Config.Var) (h : ∀ v ∈ cfg, Secret v.name → v.is 4 = true) :
    config_show (cfg.map openVar) = config_show cfg := by
  have h1 : ((cfg.map openVar).filter visible).length = (cfg.filter visible).length := by
    rw [List.filter_map, List.length_map]
    congr 1
    apply List.filter_congr
    intro v _
    simp [visible, openVar_is]
  have h2 : ∀ l : List Config.Var, (∀ v ∈ l, Secret v.name → v.is 4 = true) →
      (l.map openVar).flatMap (fun v => if v.is 4 || v.is 8 then [] else data_write_raw v.name ++ Config.encode v) =
      l.flatMap (fun v => if v.is 4 || v.is 8 then [] else data_write_raw v.name ++ Config.encode v) := by
    intro l
    induction l with
    | nil => intro _; rfl
    | cons v l ih =>
      intro h
      simp only [List.map_cons, List.flatMap_cons]
      rw [ih (fun u hu => h u (by simp [hu]))]
      congr 1
      by_cases hs : Secret v.name
      · have := h v (by simp) hs
        simp [openVar_is, this]
      · have : openVar v = v := by unfold openVar; rw [if_neg hs]
        rw [this]
  unfold config_show
  rw [h1, h2 cfg h]

theorem show_op_blank {w : World} (h : C35.Table w.vars) {op : Parse.ShowOp} (ha : ¬ Asks op) :
    execute_show_op (blank w) op = execute_show_op w op := by
  unfold execute_show_op
  cases ht : op.type with
  | memory => rfl
  | wal => simp only [wal_show, var_int_blank]; rfl
  | clouds =>
    simp only [cloud_mgr_show]
    cases name_of op.name with
    | none =>
      simp only [blank, List.length_map, List.flatMap_map]
      rfl
    | some n =>
      have e : cloud_mgr_find (blank w).clouds n = (cloud_mgr_find w.clouds n).map openCloud := find_cloud _ _
      simp only [e]
      cases cloud_mgr_find w.clouds n <;> rfl
  | storages => exact engine_show_blank ..
  | partition =>
    cases op.name with
    | int n => exact engine_show_blank ..
    | _ => rfl
  | partitions => exact engine_show_blank ..
  | pipeline => rfl
  | config =>
    exact congrArg Res.ok (config_show_blank w.vars (fun v hv hs => secret_hidden h hv hs))
  | name =>
    simp only
    cases hn : string_of op.name with
    | ok n =>
      simp only [Res.bind_ok]
      have e : Config.find (blank w).vars n = (Config.find w.vars n).map openVar := find_var _ _
      rw [e]
      cases hf : Config.find w.vars n with
      | none => rfl
      | some v =>
        have hv := (find_name hf).1
        have : openVar v = v := by
          unfold openVar
          rw [if_neg]
          intro hs
          exact ha ⟨ht, n, hn, hv ▸ hs⟩
        simp [this]
    | _ => rfl

theorem show_ops_blank {w : World} (h : C35.Table w.vars) (ops : List Parse.ShowOp) (ha : ∀ op ∈ ops, ¬ Asks op) :
    execute_show_ops (blank w) ops = execute_show_ops w ops := by
  induction ops with
  | nil => rfl
  | cons op l ih =>
    simp only [execute_show_ops]
    rw [show_op_blank h (ha op (by simp)), ih (fun o ho => ha o (by simp [ho]))]

end Verif.C63

/-! What SHOW says of the two variables. -/
namespace Verif.C63
open Data Decode Show C34 C35 Json

/-- A list of values. -/
def toVals : List Val → Vals
  | [] => .nil
  | v :: l => .cons v (toVals l)

/-- A cloud as it is saved. -/
def cloudVal (c : CloudConfig) : Val :=
  .map (.cons (cstr "name") (.str c.name) (.cons (cstr "type") (.str c.type) (.cons (cstr "login") (.str c.login)
    (.cons (cstr "password") (.str c.password) (.cons (cstr "url") (.str c.url)
    (.cons (cstr "debug") (.bool c.debug) .nil))))))

/-- A storage as it is saved. -/
def sourceVal (s : Source) : Val :=
  .map (.cons (cstr "uuid") (.str (s.uuid.text.map UInt8.ofNat)) (.cons (cstr "name") (.str s.name)
    (.cons (cstr "path") (.str s.path) (.cons (cstr "cloud") (.str s.cloud)
    (.cons (cstr "cloud_drop_local") (.bool s.cloud_drop_local) (.cons (cstr "sync") (.bool s.sync)
    (.cons (cstr "crc") (.bool s.crc) (.cons (cstr "refresh_wm") (.int s.refresh_wm)
    (.cons (cstr "region_size") (.int s.region_size) (.cons (cstr "compression") (.str s.compression)
    (.cons (cstr "compression_level") (.int s.compression_level) (.cons (cstr "encryption") (.str s.encryption)
    (.cons (cstr "encryption_key") (.str s.encryption_key) .nil)))))))))))))

theorem enc_cloud (c : CloudConfig) : enc (cloudVal c) = c.write := by
  simp only [cloudVal, enc, encMap, CloudConfig.write, Maps.len, List.append_nil]

theorem enc_source (s : Source) : enc (sourceVal s) = s.write := by
  simp only [sourceVal, enc, encMap, Source.write, Maps.len, List.append_nil]

theorem toVals_len (l : List Val) : (toVals l).len = l.length := by
  induction l with
  | nil => rfl
  | cons v l ih => simp [toVals, Vals.len, ih]

theorem enc_list {α : Type} (f : α → Val) (g : α → Bytes) (h : ∀ a, enc (f a) = g a) (l : List α) :
    enc (.arr (toVals (l.map f))) = data_write_array l.length ++ l.flatMap g := by
  have : ∀ l : List α, encAll (toVals (l.map f)) = l.flatMap g := by
    intro l
    induction l with
    | nil => rfl
    | cons a l ih => simp [toVals, encAll, ih, h]
  simp [enc, toVals_len, this]

theorem plain_list {α : Type} (f : α → Val) (l : List α) (hl : l.length < 2147483648) (h : ∀ a ∈ l, Plain (f a)) :
    Plain (.arr (toVals (l.map f))) := by
  refine ⟨by simpa [toVals_len] using hl, ?_⟩
  clear hl
  induction l with
  | nil => trivial
  | cons a l ih => exact ⟨h a (by simp), ih (fun b hb => h b (by simp [hb]))⟩

theorem depth_list {α : Type} (f : α → Val) (l : List α) (d : Nat) (h : ∀ a, depth (f a) ≤ d) :
    depth (.arr (toVals (l.map f))) ≤ d + 1 := by
  have : depthAll (toVals (l.map f)) ≤ d := by
    induction l with
    | nil => exact Nat.zero_le _
    | cons a l ih =>
      have := h a
      show max (depth (f a)) _ ≤ d
      omega
  show depthAll _ + 1 ≤ _
  omega

/-- The texts of the elements are in the text of the list. -/
theorem text_list {α : Type} (f : α → Val) (l : List α) (pretty : Bool) (deep : Nat) (a : α) (ha : a ∈ l) :
    text pretty deep (f a) <:+: text pretty deep (.arr (toVals (l.map f))) := by
  have : text pretty deep (f a) <:+: textAll pretty deep (toVals (l.map f)) := by
    induction l with
    | nil => simp at ha
    | cons b l ih =>
      simp only [List.map_cons, toVals, textAll]
      rcases List.mem_cons.1 ha with rfl | ha
      · exact ⟨[], _, by simp only [List.nil_append, List.append_assoc]; rfl⟩
      · obtain ⟨p, q, e⟩ := ih ha
        exact ⟨text pretty deep (f b) ++ (if (toVals (l.map f)).len > 0 then [44, 32] else []) ++ p, q,
          by rw [← e]; simp only [List.append_assoc]⟩
  obtain ⟨p, q, e⟩ := this
  exact ⟨[91] ++ p, q ++ [93], by simp only [text, ← e, List.append_assoc]⟩

/-- A string is in the text of an object that has it as a value. -/
theorem text_entry {k : Bytes} {s : Bytes} (pretty : Bool) (deep : Nat) (l : Maps)
    (h : ∃ p q, textMap pretty deep l = p ++ s ++ q) (v : Val) : ∃ p q, textMap pretty deep (.cons k v l) = p ++ s ++ q := by
  obtain ⟨p, q, e⟩ := h
  refine ⟨(if pretty then indent (deep + 1) else []) ++ ([34] ++ k ++ [34]) ++ [58, 32] ++ text pretty (deep + 1) v ++
    (if pretty then (if l.len > 0 then [44, 10] else [10]) else (if l.len > 0 then [44, 32] else [])) ++ p, q, ?_⟩
  simp only [textMap, e, List.append_assoc]

theorem text_here {k s : Bytes} (pretty : Bool) (deep : Nat) (l : Maps) :
    ∃ p q, textMap pretty deep (.cons k (.str s) l) = p ++ s ++ q := by
  refine ⟨(if pretty then indent (deep + 1) else []) ++ ([34] ++ k ++ [34]) ++ [58, 32] ++ [34],
    [34] ++ ((if pretty then (if l.len > 0 then [44, 10] else [10]) else (if l.len > 0 then [44, 32] else [])) ++
      textMap pretty deep l), ?_⟩
  simp only [textMap, text, List.append_assoc]

theorem text_map {s : Bytes} {l : Maps} (pretty : Bool) (deep : Nat) (h : ∃ p q, textMap pretty deep l = p ++ s ++ q) :
    s <:+: text pretty deep (.map l) := by
  obtain ⟨p, q, e⟩ := h
  exact ⟨(if pretty then [123, 10] else [123]) ++ p, q ++ ((if pretty then indent deep else []) ++ [125]),
    by simp only [text, e, List.append_assoc]⟩

theorem password_shown (c : CloudConfig) (pretty : Bool) (deep : Nat) : c.password <:+: text pretty deep (cloudVal c) :=
  text_map _ _ (text_entry _ _ _ (text_entry _ _ _ (text_entry _ _ _ (text_here _ _ _) _) _) _)

theorem key_shown (s : Source) (pretty : Bool) (deep : Nat) : s.encryption_key <:+: text pretty deep (sourceVal s) :=
  text_map _ _ (text_entry _ _ _ (text_entry _ _ _ (text_entry _ _ _ (text_entry _ _ _ (text_entry _ _ _
    (text_entry _ _ _ (text_entry _ _ _ (text_entry _ _ _ (text_entry _ _ _ (text_entry _ _ _ (text_entry _ _ _
    (text_entry _ _ _ (text_here _ _ _) _) _) _) _) _) _) _) _) _) _) _) _)

theorem table_find {cfg : List Config.Var} (h : Table cfg) {name : Bytes} {ty : Config.VType} {fl : Nat}
    (hp : (name, ty, fl) ∈ Config.prepare.map (fun v => (v.name, v.type, v.flags)))
    (hu : ∀ e ∈ Config.prepare.map (fun v => (v.name, v.type, v.flags)), e.1 = name → e = (name, ty, fl)) :
    ∃ v, Config.find cfg name = some v ∧ v ∈ cfg ∧ v.name = name ∧ v.type = ty ∧ v.flags = fl := by
  rw [← h] at hp hu
  have : ∃ v, Config.find cfg name = some v := by
    clear hu h
    induction cfg with
    | nil => simp at hp
    | cons c l ih =>
      simp only [Config.find]
      by_cases hc : c.name = name
      · rw [if_pos hc]; exact ⟨_, rfl⟩
      · rw [if_neg hc]
        simp only [List.map_cons, List.mem_cons] at hp
        rcases hp with hp | hp
        · simp only [Prod.mk.injEq] at hp
          exact absurd hp.1.symm hc
        · exact ih hp
  obtain ⟨v, hf⟩ := this
  obtain ⟨hn, hm⟩ := find_name hf
  have := hu _ (List.mem_map.2 ⟨v, hm, rfl⟩) hn
  simp only [Prod.mk.injEq] at this
  exact ⟨v, hf, hm, this⟩

theorem show_data {fmt : Nat → Bytes} {d : Nat} {w : World} {name : List Nat} {debug : Bool} {v : Config.Var} {l : Vals}
    (hf : Config.find w.vars (name.map UInt8.ofNat) = some v) (ht : v.type = .data) (hfl : v.is 8 = false)
    (hx : v.str = enc (.arr l)) (hp : Plain (.arr l)) (hd : depth (.arr l) ≤ d) :
    execute_show fmt d w [⟨.name, .name name, debug⟩] = .ok (text true 0 (.arr l)) := by
  have hne : v.str.isEmpty = false := by
    rw [hx]
    simp only [enc, data_write_array, writeCount]
    split
    · rfl
    · split
      · rfl
      · split <;> rfl
  have e : execute_show_op w ⟨.name, .name name, debug⟩ = .ok (enc (.arr l)) := by
    simp only [execute_show_op, string_of, Res.bind_ok, hf, hfl]
    simp only [Config.encode, ht, hne, Bool.false_eq_true, if_false]
    rw [hx]
  have he := export_text fmt true (.arr l) hp d hd 0 (enc (.arr l)) [] (encodes_enc _)
  simp only [List.append_nil] at he
  simp only [execute_show, execute_show_ops, e, Res.bind_ok, export_pretty]
  simp [he]

end Verif.C63
