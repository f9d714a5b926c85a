import Verif.Proofs.C83Step

/-! C83: commands on storages, the pipeline and variables; runs. -/
namespace Verif.C83
open Data C34 C35 Decode Reopen Config

/-! ### Storages -/

theorem through_moved {st : St} {xc xs xp : C34.Val} (h : Core st xc xs xp) {r : Res Unit × Settings.St}
    (hr : r.2.storages = st.storages ∨ (r.1 = .ok () ∧ Objs st.clouds (r.2.storages.map (·.source)) st.tiers ∧
      (∀ s ∈ r.2.storages, s.cloud = C80.cloudOf s.source) ∧ cstr "main" ∈ (r.2.storages.map (·.source)).map (·.name))) :
    Moved st (through st r) := by
  unfold through
  by_cases e : r.2.storages = st.storages
  · rw [if_pos e]; exact .inl rfl
  · rw [if_neg e]
    rcases hr with hr | ⟨h1, h2, h3, h4⟩
    · exact absurd hr e
    · exact .inr ⟨h1, xc, _, xp, core_storages (st := { st with storages := r.2.storages }) h.vars h2 h.xc h.xp h3 h4⟩

theorem wrap_i32 (i : Int) : I32 (wrapS32 i) := by unfold I32 wrapS32; omega

theorem copy_ok {d : Prop} {c : Source} {mask : Nat} (hc : SourceFine d c.name c mask) (hs : d ∨ (Delimited c.path ∧ Delimited c.encryption_key))
    (hcl : Sound c.cloud) : SourceOk c.copy :=
  ⟨hc.legal, hc.sound, half_sound hc.path (hs.imp id (·.1)), hcl, wrap_i32 _, wrap_i32 _, hc.compression, wrap_i32 _, hc.encryption,
    half_sound hc.key (hs.imp id (·.2))⟩

theorem cloud_sound {st : St} {xc xs xp : C34.Val} (h : Core st xc xs xp) {n : Bytes} (hn : n = [] ∨ n ∈ st.clouds.map (·.name)) : Sound n := by
  rcases hn with rfl | hn
  · exact sound_nil
  · obtain ⟨c, h1, rfl⟩ := List.mem_map.1 hn
    exact (h.objs.clouds c h1).1.name

theorem storage_create_moved {st : St} {xc xs xp : C34.Val} (h : Core st xc xs xp) {c : Source} {ine : Bool} {o : Settings.Outside} {d : Prop}
    (hc : SourceFine d c.name c 0) (hs : d ∨ (Delimited c.path ∧ Delimited c.encryption_key))
    (hl : st.storages.length + 1 < 2147483648) : Moved st (through st (Settings.storage_create (view st) c ine o)) := by
  apply through_moved h
  have ho := h.objs
  unfold Settings.storage_create
  split
  · split <;> exact .inl rfl
  · split
    · exact .inl rfl
    · rename_i hf _
      have key : ∀ cloud, (c.cloud = [] ∨ c.cloud ∈ st.clouds.map (·.name)) → cloud = C80.cloudOf c →
          Objs st.clouds ((st.storages ++ [(⟨c.copy, cloud, []⟩ : Settings.Storage)]).map (·.source)) st.tiers ∧
          (∀ s ∈ st.storages ++ [(⟨c.copy, cloud, []⟩ : Settings.Storage)], s.cloud = C80.cloudOf s.source) ∧
          cstr "main" ∈ ((st.storages ++ [(⟨c.copy, cloud, []⟩ : Settings.Storage)]).map (·.source)).map (·.name) := by
        intro cloud hcl e
        have hok := copy_ok hc hs (cloud_sound h hcl)
        refine ⟨⟨ho.clouds, ho.clen, ?_, by simpa using hl, ?_, ?_, ho.tlen⟩, ?_, ?_⟩
        · intro a ha
          simp only [List.map_append, List.mem_append, List.map_cons, List.map_nil, List.mem_singleton] at ha
          rcases ha with ha | rfl
          · exact ho.sources a ha
          · exact hok
        · intro a ha
          simp only [List.map_append, List.mem_append, List.map_cons, List.map_nil, List.mem_singleton] at ha
          rcases ha with ha | rfl
          · exact ho.link a ha
          · exact hcl
        · intro t ht
          obtain ⟨k1, k2⟩ := ho.tiers t ht
          refine ⟨k1, ?_⟩
          rw [List.map_append, List.map_append]
          exact List.mem_append_left _ k2
        · intro s hs
          rcases List.mem_append.1 hs with hs | hs
          · exact h.link s hs
          · rw [List.mem_singleton] at hs
            subst hs
            exact e
        · rw [List.map_append, List.map_append]
          exact List.mem_append_left _ h.main
      rcases C80.set_cloud_cases (view st).clouds c o.attach with ⟨h1, h2⟩ | ⟨h1, h2, _, h3⟩ | ⟨h1, h2, m, h3⟩
      · rw [h2]
        exact .inr ⟨rfl, key none (.inl h1) (by simp [C80.cloudOf, h1])⟩
      · rw [h3]
        exact .inr ⟨rfl, key _ (.inr h2) (by simp [C80.cloudOf, h1])⟩
      · rw [h3]
        exact .inl rfl

theorem storage_drop_moved {st : St} {xc xs xp : C34.Val} (h : Core st xc xs xp) (name : Bytes) (ie : Bool) (o : Settings.Outside) :
    Moved st (through st (Settings.storage_drop (view st) name ie { o with tier := tiered st name })) := by
  apply through_moved h
  have ho := h.objs
  unfold Settings.storage_drop
  split
  · exact .inl rfl
  · rename_i hmain
    split
    · split <;> exact .inl rfl
    · rename_i s hf
      split
      · exact .inl rfl
      · rename_i ht
        split
        · exact .inl rfl
        · split
          · exact .inl rfl
          · obtain ⟨hn, pre, post, e1, _, e3, _⟩ := C80.find_split hf
            have e1 : st.storages = pre ++ s :: post := e1
            refine .inr ⟨rfl, ?_⟩
            dsimp only
            rw [e3]
            have hsub : ∀ a ∈ pre ++ post, a ∈ st.storages := by
              intro a ha
              rw [e1]
              rcases List.mem_append.1 ha with ha | ha
              · exact List.mem_append_left _ ha
              · exact List.mem_append_right _ (List.mem_cons_of_mem _ ha)
            have hname : ∀ x, x ≠ name → x ∈ (st.storages.map (·.source)).map (·.name) → x ∈ ((pre ++ post).map (·.source)).map (·.name) := by
              intro x hx hm
              rw [e1] at hm
              simp only [List.map_append, List.map_cons, List.mem_append, List.mem_cons] at hm ⊢
              rcases hm with hm | hm | hm
              · exact .inl hm
              · exact absurd (hm.trans hn) hx
              · exact .inr hm
            refine ⟨⟨ho.clouds, ho.clen, ?_, ?_, ?_, ?_, ho.tlen⟩, fun a ha => h.link a (hsub a ha), hname _ (Ne.symm hmain) h.main⟩
            · intro a ha
              obtain ⟨b, hb, rfl⟩ := List.mem_map.1 ha
              exact ho.sources _ (List.mem_map_of_mem (hsub b hb))
            · have := ho.slen
              rw [e1] at this
              simp only [List.length_map, List.length_append, List.length_cons] at *
              omega
            · intro a ha
              obtain ⟨b, hb, rfl⟩ := List.mem_map.1 ha
              exact ho.link _ (List.mem_map_of_mem (hsub b hb))
            · intro t htm
              obtain ⟨k1, k2⟩ := ho.tiers t htm
              refine ⟨k1, hname _ ?_ k2⟩
              intro e
              apply ht
              dsimp only
              unfold tiered
              rw [List.any_eq_true]
              exact ⟨t, htm, by simp [e]⟩

theorem storage_alter_moved {st : St} {xc xs xp : C34.Val} (h : Core st xc xs xp) {c : Source} {mask : Nat} {ie : Bool} {o : Settings.Outside}
    {d : Prop} (hc : SourceFine d c.name c mask) (_hb : mask.testBit 0 = false) (hs : d ∨ (Delimited c.path ∧ Delimited c.encryption_key))
    (hok : mask.testBit 3 = true → c.cloud = [] ∨ ((∃ d ∈ st.clouds, d.name = c.cloud) ∧ o.attach = false)) :
    Moved st (through st (Settings.storage_alter (view st) c mask ie o)) := by
  apply through_moved h
  have ho := h.objs
  unfold Settings.storage_alter
  split
  · split <;> exact .inl rfl
  · rename_i s hf
    obtain ⟨hn, pre, post, e1, e2, _, _⟩ := C80.find_split hf
    have e1 : st.storages = pre ++ s :: post := e1
    have hsm : s ∈ st.storages := by rw [e1]; simp
    have hsok := ho.sources s.source (List.mem_map_of_mem hsm)
    have key : ∀ cloud, (mask.testBit 3 = true → c.cloud = [] ∨ c.cloud ∈ st.clouds.map (·.name)) →
        cloud = C80.cloudOf (Settings.source_alter s.source c mask) →
        Objs st.clouds ((pre ++ (⟨Settings.source_alter s.source c mask, cloud, s.parts⟩ : Settings.Storage) :: post).map (·.source)) st.tiers ∧
        (∀ t ∈ pre ++ (⟨Settings.source_alter s.source c mask, cloud, s.parts⟩ : Settings.Storage) :: post, t.cloud = C80.cloudOf t.source) ∧
        cstr "main" ∈ ((pre ++ (⟨Settings.source_alter s.source c mask, cloud, s.parts⟩ : Settings.Storage) :: post).map (·.source)).map (·.name) := by
      intro cloud hcl e
      have hname : (Settings.source_alter s.source c mask).name = s.source.name := by simp [Settings.source_alter, hc.bit1]
      have hlk : (Settings.source_alter s.source c mask).cloud = [] ∨ (Settings.source_alter s.source c mask).cloud ∈ st.clouds.map (·.name) := by
        unfold Settings.source_alter
        dsimp only
        split
        · rename_i e; exact hcl e
        · exact ho.link s.source (List.mem_map_of_mem hsm)
      have hnew : SourceOk (Settings.source_alter s.source c mask) := by
        refine ⟨?_, by rw [hname]; exact hsok.name, ?_, cloud_sound h hlk, ?_, ?_, ?_, ?_, ?_, ?_⟩
        all_goals unfold Settings.source_alter; dsimp only
        · split
          · exact hc.legal
          · exact hsok.uuid
        · split
          · exact half_sound hc.path (hs.imp id (·.1))
          · exact hsok.path
        · split
          · exact wrap_i32 _
          · exact hsok.refresh
        · split
          · exact wrap_i32 _
          · exact hsok.region
        · split
          · exact hc.compression
          · exact hsok.compression
        · split
          · exact wrap_i32 _
          · exact hsok.level
        · split
          · exact hc.encryption
          · exact hsok.encryption
        · split
          · exact half_sound hc.key (hs.imp id (·.2))
          · exact hsok.key
      have hnames : ((pre ++ (⟨Settings.source_alter s.source c mask, cloud, s.parts⟩ : Settings.Storage) :: post).map (·.source)).map (·.name) =
          (st.storages.map (·.source)).map (·.name) := by
        rw [e1]; simp [hname]
      refine ⟨⟨ho.clouds, ho.clen, ?_, ?_, ?_, ?_, ho.tlen⟩, ?_, by rw [hnames]; exact h.main⟩
      · intro a ha
        simp only [List.map_append, List.map_cons, List.mem_append, List.mem_cons] at ha
        rcases ha with ha | rfl | ha
        · exact ho.sources a (by rw [e1]; simp only [List.map_append, List.mem_append]; exact .inl ha)
        · exact hnew
        · exact ho.sources a (by rw [e1]; simp only [List.map_append, List.map_cons, List.mem_append, List.mem_cons]; exact .inr (.inr ha))
      · have := ho.slen
        rw [e1] at this
        simpa using this
      · intro a ha
        simp only [List.map_append, List.map_cons, List.mem_append, List.mem_cons] at ha
        rcases ha with ha | rfl | ha
        · exact ho.link a (by rw [e1]; simp only [List.map_append, List.mem_append]; exact .inl ha)
        · exact hlk
        · exact ho.link a (by rw [e1]; simp only [List.map_append, List.map_cons, List.mem_append, List.mem_cons]; exact .inr (.inr ha))
      · intro t ht
        rw [hnames]
        exact ho.tiers t ht
      · intro a ha
        simp only [List.mem_append, List.mem_cons] at ha
        rcases ha with ha | rfl | ha
        · exact h.link a (by rw [e1]; simp [ha])
        · exact e
        · exact h.link a (by rw [e1]; simp [ha])
    iterate 6
      split
      · exact .inl rfl
    dsimp only
    by_cases h3 : mask.testBit 3 = true
    · rw [if_neg (by simp [h3])]
      have hcl : (Settings.source_alter s.source c mask).cloud = c.cloud := by simp [Settings.source_alter, h3]
      have hin : c.cloud = [] ∨ c.cloud ∈ st.clouds.map (·.name) := by
        rcases hok h3 with k | ⟨⟨d, k1, k2⟩, _⟩
        · exact .inl k
        · exact .inr (List.mem_map.2 ⟨d, k1, k2⟩)
      rcases C80.set_cloud_cases (view st).clouds (Settings.source_alter s.source c mask) o.attach with ⟨k1, k2⟩ | ⟨k1, k2, _, k3⟩ | ⟨k1, k2, m, k3⟩
      · rw [k2]
        refine .inr ⟨rfl, ?_⟩
        dsimp only
        rw [show (view st).storages = st.storages from rfl] at e2 ⊢
        rw [e2]
        exact key none (fun _ => hin) (by simp [C80.cloudOf, k1])
      · rw [k3]
        refine .inr ⟨rfl, ?_⟩
        dsimp only
        rw [show (view st).storages = st.storages from rfl] at e2 ⊢
        rw [e2]
        exact key _ (fun _ => hin) (by unfold C80.cloudOf; rw [if_neg k1])
      · exfalso
        rw [hcl] at k1 k2
        rcases hok h3 with k | ⟨⟨d, j1, j2⟩, j3⟩
        · exact k1 k
        · exact k2 ⟨List.mem_map.2 ⟨d, j1, j2⟩, j3⟩
    · rw [if_pos h3]
      refine .inr ⟨rfl, ?_⟩
      dsimp only
      rw [show (view st).storages = st.storages from rfl] at e2 ⊢
      rw [e2]
      refine key s.cloud (fun e => absurd e h3) ?_
      rw [h.link s hsm]
      have : (Settings.source_alter s.source c mask).cloud = s.source.cloud := by simp [Settings.source_alter, h3]
      unfold C80.cloudOf
      rw [this]

theorem rename_tier_cases (name new : Bytes) : ∀ (l : List TierConfig), (l.filter fun t => t.name == name).length ≤ 1 →
    (rename_tier name new l).length = l.length ∧
    ∀ t ∈ rename_tier name new l, (t ∈ l ∧ t.name ≠ name) ∨ ∃ u ∈ l, t = { u with name := new }
  | [], _ => ⟨rfl, nofun⟩
  | t :: l, h => by
    unfold rename_tier
    by_cases e : t.name = name
    · rw [if_pos e]
      refine ⟨rfl, ?_⟩
      rw [List.filter_cons_of_pos (by simp [e])] at h
      have hnil : l.filter (fun t => t.name == name) = [] := List.eq_nil_of_length_eq_zero (by simp at h ⊢; exact h)
      intro u hu
      rcases List.mem_cons.1 hu with rfl | hu
      · exact .inr ⟨t, by simp, rfl⟩
      · refine .inl ⟨by simp [hu], ?_⟩
        have := List.filter_eq_nil_iff.1 hnil u hu
        simpa using this
    · rw [if_neg e]
      rw [List.filter_cons_of_neg (by simp [e])] at h
      obtain ⟨h1, h2⟩ := rename_tier_cases name new l h
      refine ⟨by simp [h1], ?_⟩
      intro u hu
      rcases List.mem_cons.1 hu with rfl | hu
      · exact .inl ⟨by simp, e⟩
      · rcases h2 u hu with ⟨k1, k2⟩ | ⟨w, k1, k2⟩
        · exact .inl ⟨by simp [k1], k2⟩
        · exact .inr ⟨w, by simp [k1], k2⟩

theorem storage_rename_moved {st : St} {xc xs xp : C34.Val} (h : Core st xc xs xp) {name new : Bytes} {ie : Bool} (hs : Sound new)
    (hone : (st.tiers.filter fun t => t.name == name).length ≤ 1) :
    Moved st (andThen (through st (Settings.storage_rename (view st) name new ie)) fun st => (.ok (), pipeline_rename st name new)) := by
  have ho := h.objs
  have same : ∀ r : Res Unit, (∀ u, r = .ok u → tiered st name = false) →
      Moved st (andThen (through st (r, view st)) fun st => (.ok (), pipeline_rename st name new)) := by
    intro r hr
    have : through st (r, view st) = (r, st) := if_pos rfl
    rw [this]
    refine .inl ?_
    cases r with
    | ok u =>
      simp only [andThen, pipeline_rename]
      rw [hr u rfl]
      rfl
    | err e => rfl
    | abort e => rfl
    | ub e => rfl
  unfold Settings.storage_rename
  split
  · exact same _ nofun
  · rename_i hmain
    split
    · rename_i hf
      split
      · refine same _ fun u _ => ?_
        unfold tiered
        rw [List.any_eq_false]
        intro t ht e
        have k := (ho.tiers t ht).2
        rw [List.map_map] at k
        obtain ⟨s, hsm, hse⟩ := List.mem_map.1 k
        have := C80.find_none hf s hsm
        apply this
        simp only [Function.comp] at hse
        rw [hse]
        simpa using e
      · exact same _ nofun
    · rename_i s hf
      split
      · exact same _ nofun
      · rename_i hnew
        obtain ⟨hn, pre, post, e1, e2, _, _⟩ := C80.find_split hf
        have e1 : st.storages = pre ++ s :: post := e1
        have hsm : s ∈ st.storages := by rw [e1]; simp
        have hne : new ≠ name := by
          intro e
          rw [e, hf] at hnew
          cases hnew
        rw [show (view st).storages = st.storages from rfl] at e2 ⊢
        rw [e2]
        unfold through
        dsimp only
        rw [if_neg (by
          rw [e1]
          intro e
          have := List.append_cancel_left e
          simp only [List.cons.injEq] at this
          have := congrArg (fun s => s.source.name) this.1
          dsimp only at this
          exact hne (this.trans hn))]
        simp only [andThen]
        have hname : ∀ x, x ≠ name → x ∈ (st.storages.map (·.source)).map (·.name) →
            x ∈ ((pre ++ ({ s with source := { s.source with name := new } } : Settings.Storage) :: post).map (·.source)).map (·.name) := by
          intro x hx hm
          rw [e1] at hm
          simp only [List.map_append, List.map_cons, List.mem_append, List.mem_cons] at hm ⊢
          rcases hm with hm | hm | hm
          · exact .inl hm
          · exact absurd (hm.trans hn) hx
          · exact .inr (.inr hm)
        have hobj : ∀ l : List TierConfig, l.length < 2147483648 → (∀ t ∈ l, TierOk t ∧
            t.name ∈ ((pre ++ ({ s with source := { s.source with name := new } } : Settings.Storage) :: post).map (·.source)).map (·.name)) →
            Objs st.clouds ((pre ++ ({ s with source := { s.source with name := new } } : Settings.Storage) :: post).map (·.source)) l := by
          intro l hl ht
          refine ⟨ho.clouds, ho.clen, ?_, ?_, ?_, ht, hl⟩
          · intro a ha
            simp only [List.map_append, List.map_cons, List.mem_append, List.mem_cons] at ha
            rcases ha with ha | rfl | ha
            · exact ho.sources a (by rw [e1]; simp only [List.map_append, List.mem_append]; exact .inl ha)
            · have := ho.sources s.source (List.mem_map_of_mem hsm)
              exact ⟨this.uuid, hs, this.path, this.cloud, this.refresh, this.region, this.compression, this.level, this.encryption, this.key⟩
            · exact ho.sources a (by rw [e1]; simp only [List.map_append, List.map_cons, List.mem_append, List.mem_cons]; exact .inr (.inr ha))
          · have := ho.slen
            rw [e1] at this
            simpa using this
          · intro a ha
            simp only [List.map_append, List.map_cons, List.mem_append, List.mem_cons] at ha
            rcases ha with ha | rfl | ha
            · exact ho.link a (by rw [e1]; simp only [List.map_append, List.mem_append]; exact .inl ha)
            · exact ho.link s.source (List.mem_map_of_mem hsm)
            · exact ho.link a (by rw [e1]; simp only [List.map_append, List.map_cons, List.mem_append, List.mem_cons]; exact .inr (.inr ha))
        have hlink : ∀ a ∈ pre ++ ({ s with source := { s.source with name := new } } : Settings.Storage) :: post, a.cloud = C80.cloudOf a.source := by
          intro a ha
          simp only [List.mem_append, List.mem_cons] at ha
          rcases ha with ha | rfl | ha
          · exact h.link a (by rw [e1]; simp [ha])
          · exact h.link s hsm
          · exact h.link a (by rw [e1]; simp [ha])
        have hmn := hname _ (Ne.symm hmain) h.main
        unfold pipeline_rename
        by_cases ht : tiered st name = true
        · have : tiered (save_storages { st with storages := pre ++ { s with source := { s.source with name := new } } :: post }) name = true := ht
          rw [if_pos this]
          obtain ⟨k1, k2⟩ := rename_tier_cases name new st.tiers hone
          refine .inr ⟨rfl, xc, _, _, core_tiers (st := ⟨_, st.clouds, _, rename_tier name new st.tiers, st.text⟩)
            (vars_storages h.vars (holds_storages (pre ++ { s with source := { s.source with name := new } } :: post)))
            (hobj _ (by rw [k1]; exact ho.tlen) ?_) h.xc (.inl rfl) hlink hmn⟩
          intro t htm
          rcases k2 t htm with ⟨j1, j2⟩ | ⟨u, j1, rfl⟩
          · exact ⟨(ho.tiers t j1).1, hname _ j2 (ho.tiers t j1).2⟩
          · have := (ho.tiers u j1).1
            exact ⟨⟨hs, this.partitions, this.size, this.events, this.duration⟩, by simp⟩
        · have hf' : tiered (save_storages { st with storages := pre ++ { s with source := { s.source with name := new } } :: post }) name = false := by
            exact Bool.eq_false_iff.2 ht
          rw [if_neg (by rw [hf']; nofun)]
          refine .inr ⟨rfl, xc, _, xp, core_storages (st := { st with storages := _ }) h.vars (hobj _ ho.tlen ?_) h.xc h.xp hlink hmn⟩
          intro t htm
          refine ⟨(ho.tiers t htm).1, hname _ ?_ (ho.tiers t htm).2⟩
          intro e
          apply ht
          unfold tiered
          rw [List.any_eq_true]
          exact ⟨t, htm, by simp [e]⟩

theorem pipeline_alter_moved {st : St} {xc xs xp : C34.Val} (h : Core st xc xs xp) {l : List TierConfig} (hl : l.length < 2147483648)
    (hn : ∀ t ∈ l, Sound t.name)
    (hi : ∀ t ∈ l, C35.SmallInt t.partitions ∧ C35.SmallInt t.size ∧ C35.SmallInt t.events ∧ C35.SmallInt t.duration) :
    Moved st (pipeline_alter st l) := by
  unfold pipeline_alter
  have ho := h.objs
  split
  · split
    · rename_i hall
      rw [List.all_eq_true] at hall
      refine .inr ⟨rfl, _, _, _, core_tiers (st := { st with tiers := l }) h.vars ⟨ho.clouds, ho.clen, ho.sources, ho.slen, ho.link, ?_, hl⟩
        h.xc h.xs h.link h.main⟩
      intro t ht
      obtain ⟨i1, i2, i3, i4⟩ := hi t ht
      refine ⟨⟨hn t ht, i1, i2, i3, i4⟩, ?_⟩
      obtain ⟨s, hs⟩ := Option.isSome_iff_exists.1 (hall t ht)
      rw [List.map_map]
      exact List.mem_map.2 ⟨s, C80.find_mem hs, (C80.find_split hs).1⟩
    · exact .inl rfl
  · exact .inl rfl
  · exact .inl rfl
  · exact .inl rfl

/-! ### Variables -/

/-- What SET does when it does something. -/
theorem execute_set_ok {cfg cfg' : List Var} {name : Bytes} {value : SetValue} {r : Res Unit}
    (h : execute_set true (.ok ()) cfg name value = (r, cfg')) :
    cfg' = cfg ∨ (r = .ok () ∧ ∃ v w, find cfg name = some v ∧ v.is 2 = true ∧ v.type ≠ .data ∧ cfg' = update cfg name w ∧ shape w = shape v ∧
      (v.type = .bool → w.int = 0 ∨ w.int = 1) ∧ (v.type = .int → value = .int w.int) ∧ (v.type = .string → value = .string w.str)) := by
  unfold execute_set at h
  split at h
  · cases h; exact .inl rfl
  · rename_i v e
    have hf : find cfg name = some v := by
      split at e
      · split at e
        · cases e
        · cases e; assumption
      · cases e
    split at h
    · cases h; exact .inl rfl
    · rename_i hr
      have hr : v.is 2 = true := by simpa using hr
      split at h
      · cases h; exact .inl rfl
      · dsimp only at h
        split at h
        · rename_i b ht
          cases h
          refine .inr ⟨by simp, v, _, hf, hr, by rw [ht]; nofun, rfl, rfl, fun _ => ?_, by rw [ht]; nofun, by rw [ht]; nofun⟩
          cases b
          · exact .inl rfl
          · exact .inr rfl
        · cases h; exact .inl rfl
        · rename_i n ht
          split at h
          · cases h; exact .inl rfl
          · cases h
            exact .inr ⟨by simp, v, _, hf, hr, by rw [ht]; nofun, rfl, rfl, by rw [ht]; nofun, fun _ => rfl, by rw [ht]; nofun⟩
        · cases h; exact .inl rfl
        · rename_i s ht
          cases h
          exact .inr ⟨by simp, v, _, hf, hr, by rw [ht]; nofun, rfl, rfl, by rw [ht]; nofun, by rw [ht]; nofun, fun _ => rfl⟩
        · cases h; exact .inl rfl
        · cases h; exact .inl rfl

theorem set_vars {cfg : List Var} {xc xs xp : C34.Val} (h : Vars cfg xc xs xp) {name : Bytes} {v w : Var} (hf : find cfg name = some v)
    (hr : v.is 2 = true) (ht : v.type ≠ .data) (hs : shape w = shape v)
    (hw : Saved w → Valid 2 (fun s => delimited false s = true) SmallInt C35.Plain w) : Vars (update cfg name w) xc xs xp := by
  simp only [shape, Prod.mk.injEq] at hs
  have hvn := (Config.find_mem hf).2
  have hwn : w.name = name := hs.1.trans hvn
  have htab : Table (update cfg name w) := (update_shape hf (by simp only [shape, Prod.mk.injEq]; exact hs)).trans h.table
  have hfu := fun n => find_update hwn hf n
  have lists : ∀ n, (n = nClouds ∨ n = nStorages ∨ n = nPipeline) → find (update cfg name w) n = find cfg n := by
    intro n hn
    rw [hfu, if_neg]
    rintro rfl
    obtain ⟨v', k1, _, k2, _⟩ := find_list h.table hn
    rw [hf] at k1
    cases k1
    exact ht k2
  refine ⟨htab, ?_, ?_, ?_, ?_, ?_⟩
  · rw [lists _ (.inl rfl)]; exact h.clouds
  · rw [lists _ (.inr (.inl rfl))]; exact h.storages
  · rw [lists _ (.inr (.inr rfl))]; exact h.pipeline
  · intro u hu hsu hdu
    have hfu' := find_of_mem (table_nodup htab) hu
    rw [hfu] at hfu'
    by_cases e : name = u.name
    · rw [if_pos e] at hfu'
      cases hfu'
      exact hw hsu
    · rw [if_neg e] at hfu'
      exact h.plain u (Config.find_mem hfu').1 hsu hdu
  · obtain ⟨u, x, k1, k2⟩ := h.uuid
    refine ⟨u, x, ?_, k2⟩
    rw [hfu, if_neg]
    · exact k1
    · rintro rfl
      obtain ⟨v', j1, _, _, j3⟩ := find_table h.table (show find prepare (cstr "uuid") = some (add "uuid" .string 1 "" 0) by decide +kernel)
      rw [hf] at j1
      cases j1
      unfold Var.is at hr
      rw [j3] at hr
      revert hr
      decide

theorem set_inv {m : Machine} (hd : 4 ≤ m.depth) {st : St} (h : Inv m st) {n : List Nat} {v : Token} {d : Prop} {o : Settings.Outside}
    (hf : Fine d (.set n v)) (hst : d ∨ Strings (.set n v)) (hse : Sensible st o (.set n v)) :
    Inv m (command m st (.set n v) o).2 := by
  simp only [command]
  cases e : execute_set true (.ok ()) st.cfg (Parse.str n) (Reopen.value v) with
  | mk r cfg =>
    have key := execute_set_ok e
    have same : ∀ m' : Machine, m' = m → cfg = st.cfg → ∀ r, r = (Res.ok (), { st with cfg := cfg }) ∨ r = (save m { st with cfg := cfg }) ∨
        (∃ x, r = (x, { st with cfg := cfg })) → Inv m r.2 := by
      rintro m' rfl rfl r (rfl | rfl | ⟨x, rfl⟩)
      · exact h
      · obtain ⟨xc, xs, xp, hc, _⟩ := h
        exact save_inv hd hc
      · exact h
    rcases key with rfl | ⟨rfl, v0, w, k1, k2, k3, rfl, k5, k6, k7, k8⟩
    · cases r with
      | ok u =>
        dsimp only
        split
        · split
          · exact same m rfl rfl _ (.inl rfl)
          · exact same m rfl rfl _ (.inr (.inl rfl))
        · exact same m rfl rfl _ (.inl rfl)
      | err x => exact h
      | abort x => exact h
      | ub x => exact h
    · dsimp only
      have k5' := k5
      simp only [shape, Prod.mk.injEq] at k5'
      have hwn : w.name = Parse.str n := k5'.1.trans (Config.find_mem k1).2
      have hfw : find (update st.cfg (Parse.str n) w) (Parse.str n) = some w := by rw [find_update hwn k1, if_pos rfl]
      rw [hfw]
      dsimp only
      have hvalid : Valid 2 (fun s => delimited false s = true) SmallInt C35.Plain w := by
        unfold Valid
        cases et : w.type with
        | bool => exact k6 (by rw [← k5'.2.1, et])
        | int =>
          have kk := k7 (by rw [← k5'.2.1, et])
          have : v = .int w.int := by
            revert kk
            unfold Reopen.value
            split <;> intro kk <;> cases kk
            rfl
          subst this
          exact ⟨hf, hse⟩
        | string =>
          have kk := k8 (by rw [← k5'.2.1, et])
          have : ∃ s b, v = .string s b ∧ Parse.str s = w.str := by
            revert kk
            unfold Reopen.value
            split <;> intro kk <;> simp only [SetValue.string.injEq, reduceCtorEq] at kk
            exact ⟨_, _, rfl, kk⟩
          obtain ⟨s, b, rfl, k9⟩ := this
          have hs : Sound (Parse.str s) := half_sound hf hst
          rw [k9] at hs
          exact hs
        | data => exact absurd (k5'.2.1.symm.trans et) k3
      obtain ⟨xc, xs, xp, hc, cfg0, xs0, hv0, htext, hag, hxs⟩ := h
      have hv := set_vars hc.vars k1 k2 k3 k5 fun _ => hvalid
      have hcore : Core { st with cfg := update st.cfg (Parse.str n) w } xc xs xp := ⟨hv, hc.objs, hc.xc, hc.xs, hc.xp, hc.link, hc.main⟩
      split
      · rename_i h16
        have hag2 : Agree (update st.cfg (Parse.str n) w) st.cfg := by
          intro name u hu hsu hdu
          rw [find_update hwn k1] at hu
          split at hu
          · cases hu
            unfold Saved at hsu
            rw [hsu] at h16
            cases h16
          · exact Agree.refl name u hu hsu hdu
        refine ⟨xc, xs, xp, hcore, cfg0, xs0, hv0, htext, hag2.trans hag, ?_⟩
        rcases hxs with e | ⟨e, c, j1, j2⟩
        · exact .inl e
        · refine .inr ⟨e, c, ?_, j2⟩
          dsimp only
          rw [main_source_agree hc.vars.table (hag2.symm hv.table hc.vars.table), j1]
      · exact save_inv hd hcore

/-! ### Commands and steps -/

theorem command_inv {m : Machine} (hd : 4 ≤ m.depth) {st : St} (h : Inv m st) {c : Parse.Cmd} {d : Prop} {o : Settings.Outside}
    (hf : Fine d c) (hst : d ∨ Strings c) (hse : Sensible st o c) : Inv m (command m st c o).2 := by
  have hi := h
  obtain ⟨xc, xs, xp, hc, _⟩ := h
  cases c with
  | set n v => exact set_inv hd hi hf hst hse
  | cloudCreate ine c => exact saved_inv hd hi (cloud_create_moved hc hf hst hse)
  | cloudDrop ie n => exact saved_inv hd hi (cloud_drop_moved hc _ ie)
  | cloudRename ie n n' => exact saved_inv hd hi (cloud_rename_moved hc hf.1 hf.2.1 hf.2.2)
  | cloudAlter ie n c mask => exact saved_inv hd hi (cloud_alter_moved hc hf.1 hf.2 hst hse)
  | storageCreate ine c => exact saved_inv hd hi (storage_create_moved hc hf hst hse)
  | storageDrop ie n => exact saved_inv hd hi (storage_drop_moved hc _ ie o)
  | storageRename ie n n' => exact saved_inv hd hi (storage_rename_moved hc hf.2 hse)
  | storageAlter ie n c mask => exact saved_inv hd hi (storage_alter_moved hc hf.1 hf.2 hst hse)
  | pipelineAlter l => exact saved_inv hd hi (pipeline_alter_moved hc hf.2 hf.1 hse)
  | _ => exact hi

theorem parts_inv {m : Machine} {st : St} (h : Inv m st) (f : Bytes → List Nat) :
    Inv m { st with storages := st.storages.map fun s => { s with parts := f s.source.name } } := by
  obtain ⟨xc, xs, xp, hc, cfg0, xs0, hv0, htext, hag, hxs⟩ := h
  have e : (st.storages.map fun s => ({ s with parts := f s.source.name } : Settings.Storage)).map (·.source) = st.storages.map (·.source) := by
    rw [List.map_map]; rfl
  refine ⟨xc, xs, xp, ⟨hc.vars, ?_, hc.xc, ?_, hc.xp, ?_, ?_⟩, cfg0, xs0, hv0, htext, hag, ?_⟩
  · dsimp only; rw [e]; exact hc.objs
  · dsimp only; rw [e]; exact hc.xs
  · intro s hs
    obtain ⟨t, ht, rfl⟩ := List.mem_map.1 hs
    exact hc.link t ht
  · dsimp only; rw [e]; exact hc.main
  · dsimp only; rw [e]; exact hxs

theorem key_sound {key : Bytes} (hl : key.length = 32) (h : ∀ b ∈ key, Alnum b) : Sound key := by
  refine ⟨by unfold Short; omega, delimited_plain fun b hb => ?_⟩
  have := h b hb
  unfold Alnum at this
  constructor
  · rintro rfl; revert this; decide
  · rintro rfl; revert this; decide

theorem step_inv {m : Machine} (hd : 4 ≤ m.depth) {st : St} (h : Inv m st) {op : Op} (hg : Given op) (hc : Careful st op) :
    ∃ st', step m st op = some st' ∧ Inv m st' := by
  cases op with
  | execute text uuid key o =>
    refine ⟨_, rfl, ?_⟩
    unfold execute
    cases e : (envOf st.cfg uuid key).bind fun env => Parse.parse env text with
    | ok c =>
      dsimp only
      obtain ⟨env, h1, h2⟩ := Res.bind_eq_ok.1 e
      obtain ⟨g1, g2, g3, g4, g5⟩ := hg
      have hsay : Says st text uuid key c := ⟨env, h1, h2⟩
      have henv : env.uuid = uuid ∧ env.key = key ∧ Sound env.compression := by
        obtain ⟨xc, xs, xp, hcore, _⟩ := h
        obtain ⟨⟨p, k1, k2, k3⟩, _⟩ := find_strings hcore.vars.table
        have hp := hcore.vars.plain p (Config.find_mem k1).1 k3 (by rw [k2]; nofun)
        unfold Valid at hp
        rw [k2] at hp
        unfold envOf at h1
        split at h1
        · rename_i i c' l e1 e2 e3
          rw [k1] at e2
          cases e2
          cases h1
          exact ⟨rfl, rfl, hp⟩
        · cases h1
      obtain ⟨n1, n2, n3⟩ := henv
      have hfine := parse_fine (env := env) g1 g2 (by rw [n1]; exact g3) n3 (by rw [n2]; exact key_sound g4 g5) h2
      exact command_inv hd h hfine (hc.1.imp id fun k => k c hsay) (hc.2 c hsay)
    | err x => exact h
    | abort x => exact h
    | ub x => exact h
  | partitions f => exact ⟨_, rfl, parts_inv h f⟩
  | restart fresh =>
    obtain ⟨st', h1, _, h3⟩ := boot_inv hd h hg
    refine ⟨st', ?_, h3⟩
    simp only [step, h1]

theorem run_inv {m : Machine} (hd : 4 ≤ m.depth) : ∀ (ops : List Op) {st : St}, Inv m st → (∀ op ∈ ops, Given op) → Carefully m st ops →
    ∃ st', run m st ops = some st' ∧ Inv m st'
  | [], st, h, _, _ => ⟨st, rfl, h⟩
  | op :: ops, st, h, hg, hc => by
    obtain ⟨st1, h1, h2⟩ := step_inv hd h (hg op (List.mem_cons_self ..)) hc.1
    obtain ⟨st2, h3, h4⟩ := run_inv hd ops h2 (fun op ho => hg op (List.mem_cons_of_mem _ ho)) (hc.2 st1 h1)
    exact ⟨st2, by unfold run; rw [h1]; exact h3, h4⟩

end Verif.C83
