import Verif.Proofs.C83

/-! C83: steps keep an environment in order. -/
namespace Verif.C83
open Data C34 C35 Decode Reopen Config

/-! ### The first start -/

theorem first_table (uuid : Uuid) : Table (first uuid) := by
  unfold Table first
  rw [List.map_map]
  apply List.map_congr_left
  intro v _
  simp only [Function.comp]
  split <;> rfl

theorem first_find (uuid : Uuid) (n : Bytes) :
    find (first uuid) n = (find prepare n).map fun v => if v.name = cstr "uuid" then { v with str := uuid.text.map UInt8.ofNat } else v := by
  unfold first
  induction prepare with
  | nil => rfl
  | cons v l ih =>
    simp only [List.map_cons, find]
    have : (if v.name = cstr "uuid" then { v with str := uuid.text.map UInt8.ofNat } else v : Var).name = v.name := by split <;> rfl
    rw [this]
    split
    · rfl
    · exact ih

theorem prepare_plain : ∀ v ∈ prepare, v.int < 4611686018427387904 ∧ v.str.length + 5 < 2147483648 ∧ delimited false v.str = true ∧
    (v.type = .bool → v.int = 0 ∨ v.int = 1) := by decide +kernel

theorem first_vars {uuid : Uuid} (hu : C45.Legal uuid) : Vars (first uuid) .null .null .null := by
  have lists : ∀ name, (name = nClouds ∨ name = nStorages ∨ name = nPipeline) → ∃ v, find (first uuid) name = some v ∧ Holds .null v.str := by
    intro name hn
    have : ∃ p, find prepare name = some p ∧ p.name ≠ cstr "uuid" ∧ p.str = [] := by
      rcases hn with rfl | rfl | rfl
      · exact ⟨add "clouds" .data 5 "" 0, by decide +kernel, by decide +kernel, rfl⟩
      · exact ⟨add "storages" .data 5 "" 0, by decide +kernel, by decide +kernel, rfl⟩
      · exact ⟨add "pipeline" .data 5 "" 0, by decide +kernel, by decide +kernel, rfl⟩
    obtain ⟨p, h1, h2, h3⟩ := this
    refine ⟨p, ?_, .inl ⟨h3, rfl⟩⟩
    rw [first_find, h1, Option.map_some, if_neg h2]
  refine ⟨first_table uuid, lists _ (.inl rfl), lists _ (.inr (.inl rfl)), lists _ (.inr (.inr rfl)), ?_, ?_⟩
  · intro w hw _ hd
    have key : w.int < 4611686018427387904 ∧ w.str.length + 5 < 2147483648 ∧ delimited false w.str = true ∧
        (w.type = .bool → w.int = 0 ∨ w.int = 1) := by
      obtain ⟨v, hv, rfl⟩ := List.mem_map.1 hw
      obtain ⟨h1, h2, h3, h4⟩ := prepare_plain v hv
      have hs := sound_uuid uuid
      split
      · exact ⟨h1, hs.1, hs.2, h4⟩
      · exact ⟨h1, h2, h3, h4⟩
    obtain ⟨h1, h2, h3, h4⟩ := key
    unfold Valid
    cases e : w.type with
    | bool => exact h4 e
    | int =>
      refine ⟨by omega, ?_⟩
      unfold SmallInt toS64 wrapS64; omega
    | string => exact ⟨h2, h3⟩
    | data => exact absurd e hd
  · refine ⟨{ add "uuid" .string 1 "" 0 with str := uuid.text.map UInt8.ofNat }, uuid, ?_, ?_⟩
    · rw [first_find, show find prepare (cstr "uuid") = some (add "uuid" .string 1 "" 0) by decide +kernel]
      rfl
    · dsimp only
      exact (C48.fromString_iff _ _ _).2 (C48.uuidText_text uuid hu)

/-- A new environment starts and is in order. -/
theorem start_inv {m : Machine} (hd : 4 ≤ m.depth) {uuid : Uuid} (hu : C45.Legal uuid) :
    ∃ st, boot m (first uuid) none = .ok st ∧ Inv m st := by
  have hv := first_vars hu
  obtain ⟨text, h1, _⟩ := vars_open hv hd (by
    rintro x (rfl | rfl | rfl) <;> exact ⟨trivial, trivial, by simp [depth]⟩)
  obtain ⟨vc, c1, c2⟩ := hv.clouds
  obtain ⟨vs, s1, s2⟩ := hv.storages
  obtain ⟨vp, p1, p2⟩ := hv.pipeline
  obtain ⟨c, m1, m2, m3, m4⟩ := main_source_ok hv
  have hclouds : open_list CloudConfig.read create_object (first uuid) nClouds = .ok [] :=
    open_list_ok clouds create_object (fun c => c) c1 (.inr ⟨rfl, rfl⟩) c2 (by simp) (by simp) (by simp)
  have hst : open_list Source.read (create_storage []) (first uuid) nStorages = .ok [] :=
    open_list_ok sources (create_storage []) made s1 (.inr ⟨rfl, rfl⟩) s2 (by simp) (by simp) (by simp)
  have hb : Holds (.arr (vals ([c.copy].map sources.val)))
      (data_write_array 1 ++ [(⟨c.copy, none, []⟩ : Settings.Storage)].flatMap fun s => s.source.write) :=
    .inr (encodes_list sources [c.copy])
  obtain ⟨_, _, _, _, _, h5, h6⟩ := set_data_find hv.table (.inr (.inl rfl))
    (data_write_array 1 ++ [(⟨c.copy, none, []⟩ : Settings.Storage)].flatMap fun s => s.source.write)
  have htiers : ∀ l, open_list TierConfig.read (create_tier l) (Reopen.set_data (first uuid) nStorages
      (data_write_array 1 ++ [(⟨c.copy, none, []⟩ : Settings.Storage)].flatMap fun s => s.source.write)) nPipeline = .ok [] := fun l =>
    open_list_ok tiers (create_tier l) (fun t => t) ((h6 nPipeline).trans ((if_neg names_ne.2.2).trans p1)) (.inr ⟨rfl, rfl⟩) p2
      (by simp) (by simp) (by simp)
  refine ⟨⟨Reopen.set_data (first uuid) nStorages
    (data_write_array 1 ++ [(⟨c.copy, none, []⟩ : Settings.Storage)].flatMap fun s => s.source.write), [], [⟨c.copy, none, []⟩], [], text⟩, ?_, ?_⟩
  · unfold boot open_
    dsimp only
    rw [h1, Res.bind_ok, Res.bind_ok]
    dsimp only
    rw [show cstr "clouds" = nClouds from rfl, hclouds, Res.bind_ok, show cstr "storages" = nStorages from rfl, hst, Res.bind_ok]
    unfold create_main
    dsimp only
    rw [m1, Res.bind_ok]
    have : Settings.find ([] : List Settings.Storage) c.name = none := rfl
    rw [this]
    dsimp only
    rw [Res.bind_ok]
    unfold save_storages
    dsimp only [List.nil_append]
    erw [htiers, Res.bind_ok]
    rfl
  · have hag := set_data_agree hv.table (.inr (.inl rfl))
      (data_write_array 1 ++ [(⟨c.copy, none, []⟩ : Settings.Storage)].flatMap fun s => s.source.write)
    refine ⟨.null, .arr (vals ([c.copy].map sources.val)), .null, ⟨vars_storages hv hb, ⟨by simp, by simp, ?_, by simp, ?_, by simp, by simp⟩,
      .inr ⟨rfl, rfl⟩, .inl rfl, .inr ⟨rfl, rfl⟩, ?_, ?_⟩, first uuid, .null, hv, h1, hag.symm hv.table h5, .inr ⟨rfl, c, ?_, rfl⟩⟩
    · simpa using m2
    · simp [Source.copy, m3]
    · simp [C80.cloudOf, Source.copy, m3]
    · simp [Source.copy, m4]
    · rw [main_source_agree hv.table hag, m1]

/-! ### Saving -/

theorem save_inv {m : Machine} (hd : 4 ≤ m.depth) {st : St} {xc xs xp : C34.Val} (h : Core st xc xs xp) : Inv m (save m st).2 := by
  obtain ⟨text, h1, _⟩ := vars_open h.vars hd h.facts
  unfold save
  rw [h1]
  exact ⟨xc, xs, xp, ⟨h.vars, h.objs, h.xc, h.xs, h.xp, h.link, h.main⟩, st.cfg, xs, h.vars, h1, Agree.refl, .inl rfl⟩

/-- Nothing was done, or what was done is in order. -/
def Moved (st : St) (r : Res Unit × St) : Prop := r.2 = st ∨ (r.1 = .ok () ∧ ∃ xc xs xp, Core r.2 xc xs xp)

theorem saved_inv {m : Machine} (hd : 4 ≤ m.depth) {st : St} (h : Inv m st) {r : Res Unit × St} (hr : Moved st r) :
    Inv m (saved m r).2 := by
  obtain ⟨r1, r2⟩ := r
  rcases hr with e | ⟨e, xc, xs, xp, hc⟩
  · dsimp only at e
    subst e
    cases r1 with
    | ok u =>
      obtain ⟨xc, xs, xp, hc, _⟩ := h
      exact save_inv hd hc
    | err e => exact h
    | abort e => exact h
    | ub e => exact h
  · dsimp only at e hc
    subst e
    exact save_inv hd hc

theorem core_clouds {st : St} {xc xs xp : C34.Val} (hv : Vars st.cfg xc xs xp) (ho : Objs st.clouds (st.storages.map (·.source)) st.tiers)
    (hs : Shape sources (st.storages.map (·.source)) xs) (hp : Shape tiers st.tiers xp)
    (hl : ∀ s ∈ st.storages, s.cloud = C80.cloudOf s.source) (hm : cstr "main" ∈ (st.storages.map (·.source)).map (·.name)) :
    Core (save_clouds st) (.arr (vals (st.clouds.map clouds.val))) xs xp :=
  ⟨vars_clouds hv (.inr (encodes_list clouds st.clouds)), ho, .inl rfl, hs, hp, hl, hm⟩

theorem holds_storages (l : List Settings.Storage) :
    Holds (.arr (vals ((l.map (·.source)).map sources.val))) (data_write_array l.length ++ l.flatMap fun s => s.source.write) := by
  have := encodes_list sources (l.map (·.source))
  rw [List.length_map, List.flatMap_map] at this
  exact .inr this

theorem core_storages {st : St} {xc xs xp : C34.Val} (hv : Vars st.cfg xc xs xp) (ho : Objs st.clouds (st.storages.map (·.source)) st.tiers)
    (hc : Shape clouds st.clouds xc) (hp : Shape tiers st.tiers xp)
    (hl : ∀ s ∈ st.storages, s.cloud = C80.cloudOf s.source) (hm : cstr "main" ∈ (st.storages.map (·.source)).map (·.name)) :
    Core (save_storages st) xc (.arr (vals ((st.storages.map (·.source)).map sources.val))) xp :=
  ⟨vars_storages hv (holds_storages st.storages), ho, hc, .inl rfl, hp, hl, hm⟩

theorem core_tiers {st : St} {xc xs xp : C34.Val} (hv : Vars st.cfg xc xs xp) (ho : Objs st.clouds (st.storages.map (·.source)) st.tiers)
    (hc : Shape clouds st.clouds xc) (hs : Shape sources (st.storages.map (·.source)) xs)
    (hl : ∀ s ∈ st.storages, s.cloud = C80.cloudOf s.source) (hm : cstr "main" ∈ (st.storages.map (·.source)).map (·.name)) :
    Core (save_tiers st) xc xs (.arr (vals (st.tiers.map tiers.val))) :=
  ⟨vars_pipeline hv (.inr (encodes_list tiers st.tiers)), ho, hc, hs, .inl rfl, hl, hm⟩

/-! ### Clouds -/

theorem cloud_split {l : List CloudConfig} {name : Bytes} {c : CloudConfig} (h : find_cloud l name = some c) :
    c.name = name ∧ ∃ pre post, l = pre ++ c :: post ∧ (∀ g, change name g l = pre ++ g c :: post) ∧ unlink name l = pre ++ post := by
  induction l with
  | nil => simp [find_cloud] at h
  | cons x l ih =>
    by_cases e : x.name = name
    · have : x = c := by simpa [find_cloud, e] using h
      subst this
      exact ⟨e, [], l, rfl, fun g => by simp [change, e], by simp [unlink, e]⟩
    · have h' : find_cloud l name = some c := by
        have : (x.name == name) = false := by simpa using e
        simpa [find_cloud, List.find?_cons, this] using h
      obtain ⟨hn, pre, post, e1, e2, e3⟩ := ih h'
      exact ⟨hn, x :: pre, post, by rw [e1]; rfl, fun g => by simp [change, e, e2], by simp [unlink, e, e3]⟩

theorem cloud_none {l : List CloudConfig} {name : Bytes} (h : find_cloud l name = none) : name ∉ l.map (·.name) := by
  intro hm
  obtain ⟨c, h1, h2⟩ := List.mem_map.1 hm
  have := List.find?_eq_none.1 h c h1
  simp [h2] at this

theorem half_sound {d : Prop} {s : Bytes} (h : Half d s) (hd : d ∨ Delimited s) : Sound s :=
  ⟨h.1, hd.elim h.2 fun e => e⟩

theorem create_object_type {c d : CloudConfig} (h : create_object c = .ok d) : d = c ∧ Sound c.type ∧
    (c.type = Parse.str (Lex.bytes "s3") → c.login ≠ [] ∧ c.password ≠ [] ∧ c.url ≠ []) := by
  have hm : Sound (Parse.str (Lex.bytes "mock")) := ⟨by unfold Short; decide +kernel, by unfold Delimited; decide +kernel⟩
  have hs : Sound (Parse.str (Lex.bytes "s3")) := ⟨by unfold Short; decide +kernel, by unfold Delimited; decide +kernel⟩
  have hne : Parse.str (Lex.bytes "mock") ≠ Parse.str (Lex.bytes "s3") := by decide +kernel
  unfold create_object at h
  by_cases e1 : c.type = Parse.str (Lex.bytes "mock")
  · rw [if_pos e1] at h
    cases h
    exact ⟨rfl, e1 ▸ hm, fun e => absurd (e1.symm.trans e) hne⟩
  · rw [if_neg e1] at h
    by_cases e2 : c.type = Parse.str (Lex.bytes "s3")
    · rw [if_pos e2] at h
      split at h
      · cases h
      · split at h
        · cases h
        · split at h
          · cases h
          · cases h
            exact ⟨rfl, e2 ▸ hs, fun _ => ⟨by assumption, by assumption, by assumption⟩⟩
    · rw [if_neg e2] at h
      cases h

theorem create_object_of {c d : CloudConfig} (h : create_object c = .ok c) (ht : d.type = c.type)
    (hs : c.type = Parse.str (Lex.bytes "s3") → d.login ≠ [] ∧ d.password ≠ [] ∧ d.url ≠ []) : create_object d = .ok d := by
  unfold create_object at *
  rw [ht]
  by_cases e1 : c.type = Parse.str (Lex.bytes "mock")
  · rw [if_pos e1]
  · rw [if_neg e1] at h ⊢
    by_cases e2 : c.type = Parse.str (Lex.bytes "s3")
    · obtain ⟨h1, h2, h3⟩ := hs e2
      rw [if_pos e2, if_neg h1, if_neg h2, if_neg h3]
    · rw [if_neg e2] at h
      cases h

theorem cloud_create_moved {st : St} {xc xs xp : C34.Val} (h : Core st xc xs xp) {c : CloudConfig} {ine : Bool} {d : Prop}
    (hc : CloudFine d c.name c 0) (hs : d ∨ (Delimited c.login ∧ Delimited c.password ∧ Delimited c.url))
    (hl : st.clouds.length + 1 < 2147483648) : Moved st (cloud_create st c ine) := by
  unfold cloud_create
  split
  · split <;> exact .inl rfl
  · split
    · rename_i c' e
      obtain ⟨rfl, h1, _⟩ := create_object_type e
      refine .inr ⟨rfl, _, _, _, core_clouds (st := { st with clouds := st.clouds ++ [c'] }) h.vars ?_ h.xs h.xp h.link h.main⟩
      have ho := h.objs
      refine ⟨?_, by simpa using hl, ho.sources, ho.slen, ?_, ho.tiers, ho.tlen⟩
      · intro a ha
        rcases List.mem_append.1 ha with ha | ha
        · exact ho.clouds a ha
        · rw [List.mem_singleton] at ha
          subst ha
          exact ⟨⟨hc.sound, h1, half_sound hc.login (hs.imp id (·.1)), half_sound hc.password (hs.imp id (·.2.1)),
            half_sound hc.url (hs.imp id (·.2.2))⟩, e⟩
      · intro s hs
        rcases ho.link s hs with h | h
        · exact .inl h
        · exact .inr (by rw [List.map_append]; exact List.mem_append_left _ h)
    · exact .inl rfl
    · exact .inl rfl
    · exact .inl rfl

theorem cloud_drop_moved {st : St} {xc xs xp : C34.Val} (h : Core st xc xs xp) (name : Bytes) (ie : Bool) :
    Moved st (cloud_drop st name ie) := by
  unfold cloud_drop
  split
  · split <;> exact .inl rfl
  · rename_i c e
    split
    · exact .inl rfl
    · rename_i hno
      obtain ⟨hn, pre, post, e1, _, e3⟩ := cloud_split e
      refine .inr ⟨rfl, _, _, _, core_clouds (st := { st with clouds := unlink name st.clouds }) h.vars ?_ h.xs h.xp h.link h.main⟩
      have ho := h.objs
      have hsub : ∀ a ∈ unlink name st.clouds, a ∈ st.clouds := by
        intro a ha
        rw [e3] at ha
        rw [e1]
        rcases List.mem_append.1 ha with ha | ha
        · exact List.mem_append_left _ ha
        · exact List.mem_append_right _ (List.mem_cons_of_mem _ ha)
      refine ⟨fun a ha => ho.clouds a (hsub a ha), ?_, ho.sources, ho.slen, ?_, ho.tiers, ho.tlen⟩
      · have := ho.clen
        dsimp only
        rw [e1] at this
        rw [e3]
        simp only [List.length_append, List.length_cons] at *
        omega
      · intro s hs
        rcases ho.link s hs with h' | h'
        · exact .inl h'
        · by_cases e0 : s.cloud = []
          · exact .inl e0
          · refine .inr ?_
            have hne : s.cloud ≠ name := by
              intro en
              obtain ⟨t, ht, rfl⟩ := List.mem_map.1 hs
              apply hno
              rw [List.any_eq_true]
              refine ⟨t, ht, ?_⟩
              rw [h.link t ht]
              unfold C80.cloudOf
              rw [if_neg e0, en]
              simp
            dsimp only
            rw [e3]
            rw [e1] at h'
            simp only [List.map_append, List.map_cons, List.mem_append, List.mem_cons] at h' ⊢
            rcases h' with h' | h' | h'
            · exact .inl h'
            · exact absurd (h'.trans hn) hne
            · exact .inr h'

theorem cloud_alter_moved {st : St} {xc xs xp : C34.Val} (h : Core st xc xs xp) {c : CloudConfig} {mask : Nat} {ie : Bool} {d : Prop}
    (hc : CloudFine d c.name c mask) (hb : mask.testBit 1 = false) (hs : d ∨ (Delimited c.login ∧ Delimited c.password ∧ Delimited c.url))
    (hok : ∀ d ∈ st.clouds, d.name = c.name → d.type = Parse.str (Lex.bytes "s3") →
      (mask.testBit 2 = true → c.login ≠ []) ∧ (mask.testBit 3 = true → c.password ≠ []) ∧ (mask.testBit 4 = true → c.url ≠ [])) :
    Moved st (cloud_alter st c mask ie) := by
  unfold cloud_alter
  split
  · split <;> exact .inl rfl
  · rename_i a e
    obtain ⟨hn, pre, post, e1, e2, _⟩ := cloud_split e
    refine .inr ⟨rfl, _, _, _, core_clouds (st := { st with clouds := _ }) h.vars ?_ h.xs h.xp h.link h.main⟩
    have ho := h.objs
    have ha : a ∈ st.clouds := by rw [e1]; simp
    obtain ⟨⟨n1, n2, n3, n4, n5⟩, hcr⟩ := ho.clouds a ha
    have hlogin := half_sound hc.login (hs.imp id (·.1))
    have hpass := half_sound hc.password (hs.imp id (·.2.1))
    have hurl := half_sound hc.url (hs.imp id (·.2.2))
    rw [e2]
    have key : CloudOk (cloud_config_alter a c mask) ∧ create_object (cloud_config_alter a c mask) = .ok (cloud_config_alter a c mask) ∧
        (cloud_config_alter a c mask).name = a.name := by
      have ht : (cloud_config_alter a c mask).type = a.type := by simp [cloud_config_alter, hb]
      have hname : (cloud_config_alter a c mask).name = a.name := by simp [cloud_config_alter, hc.bit0]
      refine ⟨⟨by rw [hname]; exact n1, by rw [ht]; exact n2, ?_, ?_, ?_⟩, ?_, hname⟩
      · unfold cloud_config_alter; dsimp only; split <;> assumption
      · unfold cloud_config_alter; dsimp only; split <;> assumption
      · unfold cloud_config_alter; dsimp only; split <;> assumption
      · refine create_object_of hcr ht fun e => ?_
        obtain ⟨k1, k2, k3⟩ := (create_object_type hcr).2.2 e
        obtain ⟨j1, j2, j3⟩ := hok a ha hn e
        unfold cloud_config_alter
        dsimp only
        refine ⟨?_, ?_, ?_⟩ <;> split <;> rename_i hb <;> first | exact j1 hb | exact j2 hb | exact j3 hb | assumption
    refine ⟨?_, ?_, ho.sources, ho.slen, ?_, ho.tiers, ho.tlen⟩
    · intro b hb
      simp only [List.mem_append, List.mem_cons] at hb
      rcases hb with hb | rfl | hb
      · exact ho.clouds b (by rw [e1]; simp [hb])
      · exact ⟨key.1, key.2.1⟩
      · exact ho.clouds b (by rw [e1]; simp [hb])
    · have := ho.clen
      rw [e1] at this
      simpa using this
    · intro s hs
      have := ho.link s hs
      rw [e1] at this
      simpa [key.2.2] using this

/-- A storage after its cloud was renamed. -/
def renamed (name new : Bytes) (s : Settings.Storage) : Settings.Storage :=
  ⟨if s.source.cloud = name then { s.source with cloud := new } else s.source, if s.cloud = some name then some new else s.cloud, s.parts⟩

theorem cloud_rename_moved {st : St} {xc xs xp : C34.Val} (h : Core st xc xs xp) {name new : Bytes} {ie : Bool}
    (h0 : name ≠ []) (h1 : new ≠ []) (hs : Sound new) :
    Moved st (andThen (cloud_rename st name new ie) fun st => (.ok (), rename_cloud st name new)) := by
  unfold cloud_rename
  have ho := h.objs
  split
  · rename_i e
    split
    · refine .inr ⟨rfl, xc, .arr (vals ((st.storages.map (·.source)).map sources.val)), xp, ?_⟩
      have : (st.storages.map fun s => if s.source.cloud = name then { s with source := { s.source with cloud := new } } else s) = st.storages := by
        refine (List.map_congr_left fun s hs => ?_).trans (List.map_id _)
        rw [if_neg]
        · rfl
        · intro en
          rcases ho.link s.source (List.mem_map_of_mem hs) with k | k
          · exact h0 (en.symm.trans k)
          · rw [en] at k
            exact cloud_none e k
      simp only [andThen, rename_cloud, this]
      exact core_storages h.vars ho h.xc h.xp h.link h.main
    · exact .inl rfl
  · rename_i c e
    obtain ⟨hn, pre, post, e1, e2, _⟩ := cloud_split e
    split
    · exact .inl rfl
    · rename_i e'
      have key : rename_cloud (save_clouds { st with
            clouds := change name (fun c => { c with name := new }) st.clouds
            storages := st.storages.map fun s => if s.cloud = some name then { s with cloud := some new } else s }) name new =
          save_storages ⟨Reopen.set_data st.cfg nClouds (data_write_array (change name (fun c => { c with name := new }) st.clouds).length ++
              (change name (fun c => { c with name := new }) st.clouds).flatMap CloudConfig.write),
            change name (fun c => { c with name := new }) st.clouds, st.storages.map (renamed name new), st.tiers, st.text⟩ := by
        unfold rename_cloud save_clouds
        dsimp only
        rw [List.map_map]
        congr 4
        funext s
        simp only [Function.comp, renamed]
        by_cases k1 : s.cloud = some name <;> by_cases k2 : s.source.cloud = name <;> simp [k1, k2]
      simp only [andThen]
      rw [key]
      refine .inr ⟨rfl, _, _, xp, core_storages (st := ⟨_, _, _, st.tiers, st.text⟩)
        (vars_clouds h.vars (.inr (encodes_list clouds (change name (fun c => { c with name := new }) st.clouds)))) ?_ (.inl rfl) h.xp ?_ ?_⟩
      · dsimp only
        rw [e2]
        refine ⟨?_, ?_, ?_, ?_, ?_, ?_, ho.tlen⟩
        · intro b hb
          simp only [List.mem_append, List.mem_cons] at hb
          rcases hb with hb | rfl | hb
          · exact ho.clouds b (by rw [e1]; simp [hb])
          · obtain ⟨⟨n1, n2, n3, n4, n5⟩, hcr⟩ := ho.clouds c (by rw [e1]; simp)
            exact ⟨⟨hs, n2, n3, n4, n5⟩, create_object_of hcr rfl (create_object_type hcr).2.2⟩
          · exact ho.clouds b (by rw [e1]; simp [hb])
        · have := ho.clen
          rw [e1] at this
          simpa using this
        · intro a ha
          simp only [List.map_map, List.mem_map, Function.comp] at ha
          obtain ⟨s, hsm, rfl⟩ := ha
          unfold renamed
          dsimp only
          have := ho.sources s.source (List.mem_map_of_mem hsm)
          split
          · exact ⟨this.uuid, this.name, this.path, hs, this.refresh, this.region, this.compression, this.level, this.encryption, this.key⟩
          · exact this
        · simpa using ho.slen
        · intro a ha
          simp only [List.map_map, List.mem_map, Function.comp] at ha
          obtain ⟨s, hsm, rfl⟩ := ha
          unfold renamed
          dsimp only
          have := ho.link s.source (List.mem_map_of_mem hsm)
          rw [e1] at this
          split
          · exact .inr (by simp)
          · rename_i hne
            rcases this with k | k
            · exact .inl k
            · refine .inr ?_
              simp only [List.map_append, List.map_cons, List.mem_append, List.mem_cons] at k ⊢
              rcases k with k | k | k
              · exact .inl k
              · exact absurd (k.trans hn) hne
              · exact .inr (.inr k)
        · intro t ht
          obtain ⟨k1, k2⟩ := ho.tiers t ht
          refine ⟨k1, ?_⟩
          simp only [List.map_map, List.mem_map, Function.comp] at k2 ⊢
          obtain ⟨s, hsm, hse⟩ := k2
          refine ⟨s, hsm, ?_⟩
          unfold renamed
          dsimp only
          split <;> exact hse
      · intro a ha
        simp only [List.map_map, List.mem_map, Function.comp] at ha
        obtain ⟨s, hsm, rfl⟩ := ha
        unfold renamed
        dsimp only
        have := h.link s hsm
        rw [this]
        unfold C80.cloudOf
        by_cases k1 : s.source.cloud = name
        · simp [k1, h0, h1]
        · rw [if_neg k1, if_neg]
          intro k2
          split at k2
          · cases k2
          · cases k2; exact k1 rfl
      · have := h.main
        simp only [List.map_map, List.mem_map, Function.comp] at this ⊢
        obtain ⟨s, hsm, hse⟩ := this
        refine ⟨s, hsm, ?_⟩
        unfold renamed
        dsimp only
        split <;> exact hse


end Verif.C83
