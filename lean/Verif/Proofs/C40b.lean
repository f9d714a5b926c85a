import Verif.Proofs.C40

namespace Verif.C40
open Sto
open C39 (pairwise_inj)

/-- What a command keeps before the configuration file is written. -/
structure Next (db db' : Db) : Prop where
  core : Core db'
  synced : Synced db'
  parts : Parts db'
  file : db'.file = db.file

theorem Inv.next {db : Db} (h : Inv db) : Next db db := ⟨h.core, h.synced, h.parts, rfl⟩

theorem Next.save {db : Db} (h : Inv db) {r : Res Unit × Db} (k : Next db r.2) (f : Bool) : Inv (andThen r (saveConfig f)).2 := by
  have hk : Inv r.2 := ⟨k.core, k.synced, by rw [k.file]; exact h.file, k.parts⟩
  obtain ⟨r1, r2⟩ := r
  unfold andThen
  split
  · rename_i db' he
    cases he
    unfold saveConfig
    split
    · exact hk
    · exact ⟨hk.core.vars _ _, hk.synced, hk.core.loadable hk.synced, hk.parts⟩
  · exact hk

theorem Parts.of {db db' : Db} (h : Parts db) (e : db'.storages = db.storages) : Parts db' := by
  obtain ⟨d, ⟨h1, h2⟩, h3⟩ := h
  exact ⟨d, ⟨e ▸ h1, e ▸ h2⟩, e ▸ h3⟩

theorem Core.of {db db' : Db} (h : Core db) (e : db' = { db with vars := db'.vars, file := db'.file }) : Core db' := by
  rw [e]; exact h.vars _ _

theorem next_cloud_create {db : Db} (h : Inv db) (n : Bytes) (k i : Bool) (hn : n ≠ []) : Next db (cloud_create db n k i).2 := by
  unfold cloud_create
  split
  · split <;> exact h.next
  · rename_i hf
    split
    · exact h.next
    · refine ⟨(h.core.addCloud n hn (findCloud_none hf)).of rfl, ?_, h.parts.of rfl, rfl⟩
      have := h.synced
      unfold Synced at this ⊢
      simp only [saveClouds]
      rw [this]

theorem next_cloud_drop {db : Db} (h : Inv db) (n : Bytes) (i : Bool) : Next db (cloud_drop db n i).2 := by
  unfold cloud_drop
  split
  · split <;> exact h.next
  · rename_i c hf
    split
    · exact h.next
    · rename_i hr
      refine ⟨(h.core.removeCloud (findCloud_some hf).1 (by omega)).of rfl, ?_, h.parts.of rfl, rfl⟩
      have := h.synced
      unfold Synced at this ⊢
      simp only [saveClouds]
      rw [this]

theorem next_cloud_rename {db : Db} (h : Inv db) (n m : Bytes) (i : Bool) (hn : n ≠ []) (hm : m ≠ []) :
    Next db (andThen (cloud_rename db n m i) fun db => (.ok (), storage_rename_cloud db n m)).2 := by
  have hs := h.synced
  unfold Synced at hs
  unfold cloud_rename
  split
  · rename_i hf
    split
    · -- nothing of that name
      have e : db.storages.map (fun s => if s.cloudName = n then { s with cloudName := m } else s) = db.storages := by
        apply map_id_of
        intro s hs
        refine if_neg fun e => ?_
        rcases h.core.cloud s hs with ⟨e1, _⟩ | ⟨c, hc, _, e2⟩
        · exact hn (e.symm.trans e1)
        · exact findCloud_none hf c hc (e2.trans e)
      simp only [andThen, storage_rename_cloud, e]
      refine ⟨h.core.of rfl, ?_, h.parts.of rfl, rfl⟩
      unfold Synced
      simp only [saveStorages]
      rw [hs]
    · exact h.next
  · rename_i c hf
    obtain ⟨hc, rfl⟩ := findCloud_some hf
    split
    · exact h.next
    · rename_i hf2
      refine ⟨(h.core.renameCloud hc hm (findCloud_none hf2)).of rfl, ?_, ?_, rfl⟩
      · unfold Synced
        simp only [andThen, storage_rename_cloud, saveStorages, saveClouds, onCloud]
        rw [hs]
      · refine h.parts.map _ rfl ?_
        intro s
        split <;> exact ⟨rfl, rfl, rfl, rfl, rfl⟩

theorem parts_on {db : Db} (h : Parts db) (u : Nat) (f : Storage → Storage)
    (hf : ∀ s, (f s).uid = s.uid ∧ (f s).parts = s.parts ∧ (f s).listCount = s.listCount ∧ (f s).size = s.size ∧ (f s).events = s.events) :
    Parts (onStorage db u f) := by
  refine h.map _ rfl ?_
  intro s
  split
  · exact hf s
  · exact ⟨rfl, rfl, rfl, rfl, rfl⟩

/-- A new storage and its cloud, in storage_mgr_create_object. -/
theorem set_cloud_new {db : Db} (h : Core db) (hp : Parts db) (name cn : Bytes) (af : Bool)
    (hn : ∀ s ∈ db.storages, s.name ≠ name) {db' : Db}
    (e : storage_set_cloud
        { db with
          storages := db.storages ++ [{ uid := db.next, name := name, cloudName := cn }]
          next := db.next + 1 } db.next cn af = (.ok (), db')) :
    Core db' ∧ Parts db' ∧ db'.clouds.map (·.name) = db.clouds.map (·.name) ∧
      db'.storages.map (fun s => (s.name, s.cloudName)) = db.storages.map (fun s => (s.name, s.cloudName)) ++ [(name, cn)] ∧
      db'.tiers = db.tiers ∧ db'.vars = db.vars ∧ db'.file = db.file := by
  have ht : ∀ t ∈ db.tiers, t.config.name ≠ name := by
    intro t ht e
    obtain ⟨s, hs, _, e2⟩ := h.tier t ht
    exact hn s hs (e2.trans e)
  have hfresh : ∀ s ∈ db.storages, s.uid ≠ db.next := fun s hs => by have := h.sn s hs; omega
  have ha := h.append name hn ht
  unfold storage_set_cloud at e
  split at e
  · rename_i hcn
    subst hcn
    simp only [Prod.mk.injEq, true_and] at e
    subst e
    refine ⟨ha, hp.append _ rfl hfresh rfl ⟨rfl, rfl, rfl⟩, rfl, by simp, rfl, rfl, rfl⟩
  · split at e
    · cases e
    · rename_i c hf
      split at e
      · cases e
      · simp only [Prod.mk.injEq, true_and] at e
        subst e
        have hf' : findCloud db cn = some c := hf
        obtain ⟨hc, hcn⟩ := findCloud_some hf'
        have e1 := on_fresh db ({ uid := db.next, name := name, cloudName := cn } : Storage)
          (fun s => { s with cloud := some c.uid }) (db.next + 1) hfresh
        have e2 := on_fresh db ({ uid := db.next, name := name } : Storage)
          (fun s => { s with cloudName := c.name, cloud := some c.uid }) (db.next + 1) hfresh
        dsimp only at e1 e2
        have e3 := ha.attach (s := { uid := db.next, name := name }) (List.mem_append_right _ (List.mem_singleton.2 rfl)) rfl hc
        rw [e1]
        dsimp only at e3
        rw [e2, hcn] at e3
        refine ⟨e3, ?_, ?_, ?_, rfl, rfl, rfl⟩
        · exact hp.append (db' := onCloud { db with
            storages := db.storages ++ [{ uid := db.next, name := name, cloudName := cn, cloud := some c.uid }]
            next := db.next + 1 } c.uid fun c => { c with refs := c.refs + 1 }) _ rfl hfresh rfl ⟨rfl, rfl, rfl⟩
        · rw [map_onC]
          intros; rfl
        · simp [onCloud]

theorem set_cloud_ok {db db' : Db} {u : Nat} {cn : Bytes} {af : Bool} {r : Unit} (e : storage_set_cloud db u cn af = (.ok r, db')) :
    storage_set_cloud db u cn af = (.ok (), db') := e

theorem next_storage_create {db : Db} (h : Inv db) (n c : Bytes) (i mf af : Bool) : Next db (storage_create db n c i mf af).2 := by
  unfold storage_create
  split
  · split <;> exact h.next
  · rename_i hf
    split
    · exact h.next
    · split
      · rename_i r db' e
        obtain ⟨k1, k2, k3, k4, k5, k6, k7⟩ := set_cloud_new h.core h.parts n c af (findStorage_none hf) (set_cloud_ok e)
        refine ⟨k1.of rfl, ?_, k2.of rfl, k7⟩
        have := h.synced
        unfold Synced at this ⊢
        simp only [saveStorages]
        rw [k3, k5, k6, this]
      · exact h.next

theorem filter_on (db : Db) (u : Nat) (f : Storage → Storage) (hf : ∀ s, (f s).uid = s.uid) :
    (onStorage db u f).storages.filter (fun x => x.uid ≠ u) = db.storages.filter (fun x => x.uid ≠ u) := by
  simp only [onStorage]
  induction db.storages with
  | nil => rfl
  | cons s l ih =>
    rw [List.map_cons, List.filter_cons, List.filter_cons, ih]
    by_cases e : s.uid = u
    · simp [e, hf]
    · simp [e]

theorem next_storage_drop {db : Db} (h : Inv db) (n : Bytes) (i df : Bool) : Next db (storage_drop db n i df).2 := by
  have hsy := h.synced
  unfold Synced at hsy
  unfold storage_drop
  split
  · exact h.next
  · split
    · split <;> exact h.next
    · rename_i s hf
      obtain ⟨hs, hn⟩ := findStorage_some hf
      split
      · exact h.next
      · rename_i hr
        split
        · exact h.next
        · dsimp only
          split
          · rename_i hc
            refine ⟨(h.core.remove hs hc (by omega)).of rfl, ?_, (h.parts.filter _ rfl), rfl⟩
            unfold Synced
            simp only [saveStorages]
            rw [hsy]
          · rename_i c hc
            split
            · exact h.next
            · have d := h.core.detach hs hc
              have hm : ({ s with cloudName := [], cloud := none } : Storage) ∈
                  (onCloud (onStorage db s.uid (fun s => { s with cloudName := [], cloud := none })) c
                    fun c => { c with refs := c.refs - 1 }).storages :=
                List.mem_map.2 ⟨s, hs, if_pos rfl⟩
              have r := d.remove hm rfl (by dsimp only; omega)
              have e := filter_on db s.uid (fun s => { s with cloudName := [], cloud := none }) (fun _ => rfl)
              have e' : (onCloud (onStorage db s.uid (fun s => { s with cloudName := [], cloud := none })) c
                    fun c => { c with refs := c.refs - 1 }).storages.filter (fun x => x.uid ≠ s.uid) =
                  db.storages.filter (fun x => x.uid ≠ s.uid) := e
              dsimp only at r
              rw [e'] at r
              refine ⟨r.of rfl, ?_, h.parts.filter (fun x => x.uid ≠ s.uid) rfl, rfl⟩
              unfold Synced
              have k := map_onC db c (fun c => { c with refs := c.refs - 1 }) (·.name) (fun _ => rfl)
              simp only [saveStorages, onCloud] at k ⊢
              rw [hsy, k]

/-- ALTER STORAGE that sets a cloud which exists, or none. -/
theorem next_storage_alter {db : Db} (h : Inv db) (n : Bytes) (c : Option Bytes) (ne i mf df af : Bool)
    (hc : ∀ x, c = some x → x = [] ∨ ((∃ k ∈ db.clouds, k.name = x) ∧ af = false)) :
    Next db (storage_alter db n c ne i mf df af).2 := by
  have hsy := h.synced
  unfold Synced at hsy
  unfold storage_alter
  split
  · split <;> exact h.next
  · rename_i s hf
    obtain ⟨hs, hn⟩ := findStorage_some hf
    split
    · exact h.next
    · split
      · exact h.next
      · split
        · refine ⟨h.core.of rfl, ?_, h.parts.of rfl, rfl⟩
          unfold Synced
          simp only [saveStorages]
          rw [hsy]
        · rename_i cn
          split
          · exact h.next
          · split
            · exact h.next
            · -- the storage without a cloud
              have hcore : ∃ db1, Core db1 ∧ Parts db1 ∧ db1.clouds.map (·.name) = db.clouds.map (·.name) ∧
                  db1.storages = (onStorage db s.uid fun s => { s with cloudName := [], cloud := none }).storages ∧
                  db1.tiers = db.tiers ∧ db1.vars = db.vars ∧ db1.file = db.file ∧ db1.next = db.next ∧
                  ∃ v : Vars, v = { db.vars with
                      storages := (onStorage db s.uid fun s => { s with cloudName := cn }).storages.map fun s => (s.name, s.cloudName) } ∧
                    (match s.cloud with
                      | none => saveStorages (onStorage db s.uid fun s => { s with cloudName := cn })
                      | some c => onCloud (onStorage (saveStorages (onStorage db s.uid fun s => { s with cloudName := cn }))
                          s.uid fun s => { s with cloud := none }) c fun c => { c with refs := c.refs - 1 }) =
                    { (onStorage db1 s.uid fun s => { s with cloudName := cn }) with vars := v } := by
                cases hcl : s.cloud with
                | none =>
                  have hcn : s.cloudName = [] := by
                    rcases h.core.cloud s hs with ⟨e1, _⟩ | ⟨_, _, e, _⟩
                    · exact e1
                    · rw [hcl] at e; cases e
                  have e0 : (onStorage db s.uid fun s => { s with cloudName := [], cloud := none }).storages = db.storages := by
                    apply map_id_of
                    intro x hx
                    split
                    · rename_i e
                      rw [h.core.sid hx hs e]
                      have : ∀ s : Storage, s.cloud = none → s.cloudName = [] → { s with cloudName := [], cloud := none } = s := by
                        intro s a b
                        cases s
                        simp_all
                      exact this s hcl hcn
                    · rfl
                  exact ⟨db, h.core, h.parts, rfl, e0.symm, rfl, rfl, rfl, rfl, _, rfl, rfl⟩
                | some c =>
                  refine ⟨_, h.core.detach hs hcl, ?_, ?_, rfl, rfl, rfl, rfl, rfl, _, rfl, ?_⟩
                  · exact (parts_on h.parts s.uid (fun s => { s with cloudName := [], cloud := none })
                      (fun s => ⟨rfl, rfl, rfl, rfl, rfl⟩)).of rfl
                  · rw [map_onC]
                    · rfl
                    · intros; rfl
                  · have e1 := on_on db s.uid (fun s => { s with cloudName := cn }) (fun s => { s with cloud := none }) (fun _ => rfl)
                    have e2 := on_on db s.uid (fun s => { s with cloudName := [], cloud := none }) (fun s => { s with cloudName := cn })
                      (fun _ => rfl)
                    have e3 := congrArg Db.storages (e1.trans e2.symm)
                    simp only [saveStorages, onCloud, onStorage] at e3 ⊢
                    rw [e3]
              obtain ⟨db1, k1, k2, k3, k4, k5, k6, k7, k8, v, kv, k9⟩ := hcore
              change Next db (storage_set_cloud (match s.cloud with
                      | none => saveStorages (onStorage db s.uid fun s => { s with cloudName := cn })
                      | some c => onCloud (onStorage (saveStorages (onStorage db s.uid fun s => { s with cloudName := cn }))
                          s.uid fun s => { s with cloud := none }) c fun c => { c with refs := c.refs - 1 }) s.uid cn af).2
              rw [k9]
              have hm : ({ s with cloudName := [], cloud := none } : Storage) ∈ db1.storages := by
                rw [k4]; exact List.mem_map.2 ⟨s, hs, if_pos rfl⟩
              have hnames : (onStorage db1 s.uid fun s => { s with cloudName := cn }).storages.map (fun s => (s.name, s.cloudName)) =
                  (onStorage db s.uid fun s => { s with cloudName := cn }).storages.map fun s => (s.name, s.cloudName) := by
                simp only [onStorage, k4, List.map_map]
                apply List.map_congr_left
                intro x _
                simp only [Function.comp]
                by_cases e : x.uid = s.uid
                · simp [e]
                · simp [e]
              unfold storage_set_cloud
              by_cases hcn : cn = []
              · rw [if_pos hcn]
                have e0 : (onStorage db1 s.uid fun s => { s with cloudName := cn }).storages = db1.storages := by
                  apply map_id_of
                  intro x hx
                  split
                  · rename_i e
                    rw [k1.sid hx hm e, hcn]
                  · rfl
                have e1 : (onStorage db1 s.uid fun s => { s with cloudName := cn }) = db1 := by
                  show { db1 with storages := (onStorage db1 s.uid fun s => { s with cloudName := cn }).storages } = db1
                  rw [e0]
                refine ⟨(e1 ▸ k1).of rfl, ?_, (parts_on k2 s.uid (fun s => { s with cloudName := cn })
                  (fun s => ⟨rfl, rfl, rfl, rfl, rfl⟩)).of rfl, k7⟩
                unfold Synced
                dsimp only
                rw [hnames]
                simp only [onStorage]
                rw [kv, hsy, k3, k5]
                simp only [onStorage]
              · rw [if_neg hcn]
                rcases hc cn rfl with e | ⟨⟨x, hx, hxn⟩, haf⟩
                · exact absurd e hcn
                · have hfc : ∃ c, findCloud { (onStorage db1 s.uid fun s => { s with cloudName := cn }) with vars := v } cn = some c := by
                    cases hfc : findCloud { (onStorage db1 s.uid fun s => { s with cloudName := cn }) with vars := v } cn with
                    | some c => exact ⟨c, rfl⟩
                    | none =>
                      have : cn ∈ db1.clouds.map (·.name) := by rw [k3]; exact List.mem_map.2 ⟨x, hx, hxn⟩
                      obtain ⟨y, hy, e⟩ := List.mem_map.1 this
                      exact absurd e (findCloud_none hfc y hy)
                  obtain ⟨c, hfc⟩ := hfc
                  rw [hfc, haf]
                  dsimp only
                  simp only [Bool.false_eq_true, if_false]
                  obtain ⟨hc1, hc2⟩ := findCloud_some hfc
                  have at1 := k1.attach hm rfl (c := c) hc1
                  have e1 := on_on db1 s.uid (fun s => { s with cloudName := cn }) (fun s => { s with cloud := some c.uid }) (fun _ => rfl)
                  rw [hc2] at at1
                  dsimp only at at1
                  refine ⟨(e1 ▸ at1).of rfl, ?_, ?_, k7⟩
                  · unfold Synced
                    have m1 := map_on db1 s.uid (fun s => { s with cloudName := cn, cloud := some c.uid }) (fun s => (s.name, cn)) (fun _ _ _ => rfl)
                    have m2 : (onStorage (onStorage db1 s.uid fun s => { s with cloudName := cn }) s.uid
                        fun s => { s with cloud := some c.uid }).storages.map (fun s => (s.name, s.cloudName)) =
                        (onStorage db1 s.uid fun s => { s with cloudName := cn }).storages.map fun s => (s.name, s.cloudName) := by
                      rw [map_on]
                      intros; rfl
                    have m3 := map_onC db1 c.uid (fun c => { c with refs := c.refs + 1 }) (·.name) (fun _ => rfl)
                    simp only [onStorage, onCloud] at m2 m3 hnames ⊢
                    rw [m2, m3, hnames, kv, hsy, k3, k5]
                    simp only [onStorage]
                  · exact (parts_on (parts_on k2 s.uid (fun s => { s with cloudName := cn }) (fun s => ⟨rfl, rfl, rfl, rfl, rfl⟩))
                      s.uid (fun s => { s with cloud := some c.uid }) (fun s => ⟨rfl, rfl, rfl, rfl, rfl⟩)).of rfl

theorem next_storage_rename {db : Db} (h : Inv db) (n m : Bytes) (i : Bool) :
    Next db (andThen (storage_rename db n m i) fun db => (.ok (), pipeline_rename db n m)).2 := by
  have hsy := h.synced
  unfold Synced at hsy
  unfold storage_rename
  split
  · exact h.next
  · split
    · rename_i hf
      split
      · have : (db.tiers.any fun t => t.config.name = n) = false := by
          rw [List.any_eq_false]
          intro t ht
          simp only [decide_eq_true_eq]
          intro e
          obtain ⟨s, hs, _, e2⟩ := h.core.tier t ht
          exact findStorage_none hf s hs (e2.trans e)
        simp only [andThen, pipeline_rename, this]
        exact h.next
      · exact h.next
    · rename_i s hf
      obtain ⟨hs, rfl⟩ := findStorage_some hf
      split
      · exact h.next
      · rename_i hf2
        have k := h.core.renameStorage hs (findStorage_none hf2)
        have ep : Parts (onStorage db s.uid fun s => { s with name := m }) :=
          parts_on h.parts _ _ (fun s => ⟨rfl, rfl, rfl, rfl, rfl⟩)
        show Next db (pipeline_rename (saveStorages (onStorage db s.uid fun s => { s with name := m })) s.name m)
        by_cases ha : (db.tiers.any fun t => t.config.name = s.name) = true
        · have e : pipeline_rename (saveStorages (onStorage db s.uid fun s => { s with name := m })) s.name m =
              savePipeline { saveStorages (onStorage db s.uid fun s => { s with name := m }) with tiers := renameFirst s.name m db.tiers } :=
            if_pos ha
          rw [e, renameFirst_eq _ _ _ h.core.tname]
          refine ⟨k.of rfl, ?_, ep.of rfl, rfl⟩
          unfold Synced
          simp only [savePipeline, saveStorages, onStorage]
          rw [hsy]
        · have e : pipeline_rename (saveStorages (onStorage db s.uid fun s => { s with name := m })) s.name m =
              saveStorages (onStorage db s.uid fun s => { s with name := m }) := if_neg ha
          have : db.tiers.map (fun t => if t.config.name = s.name then { t with config := { t.config with name := m } } else t) = db.tiers := by
            apply map_id_of
            intro t ht
            refine if_neg fun e => ha ?_
            rw [List.any_eq_true]
            exact ⟨t, ht, by simpa using e⟩
          rw [this] at k
          rw [e]
          refine ⟨k.of rfl, ?_, ep.of rfl, rfl⟩
          unfold Synced
          simp only [saveStorages, onStorage]
          rw [hsy]

theorem next_pipeline_alter {db : Db} (h : Inv db) (cs : List Sto.TierConfig) (hc : (cs.map (·.name)).Pairwise (· ≠ ·)) :
    Next db (pipeline_alter db cs).2 := by
  have hsy := h.synced
  unfold Synced at hsy
  unfold pipeline_alter
  split
  · split
    · exact h.next
    · rename_i ts hr
      obtain ⟨k1, k2⟩ := resolve_spec hr
      have hn : (ts.map (·.config.name)).Pairwise (· ≠ ·) := by
        rw [← k1, List.map_map] at hc
        exact hc
      have := h.core.retier ts (fun s => s.refs + 1 * (ts.countP fun t => t.storage = s.uid) + -1 * (db.tiers.countP fun t => t.storage = s.uid))
        k2 hn (by
          intro s hs
          rw [h.core.srefs s hs]
          omega)
      dsimp only
      rw [countRefs_eq, countRefs_eq]
      simp only [List.map_map]
      refine ⟨this.of rfl, ?_, ?_, rfl⟩
      · unfold Synced
        simp only [savePipeline, List.map_map]
        rw [hsy]
        rfl
      · exact h.parts.map _ rfl (fun s => ⟨rfl, rfl, rfl, rfl, rfl⟩)
  · exact h.next

theorem Inv.cmd {db : Db} (h : Inv db) (f : Bool) (c : Cmd) (hn : Named (.cmd f c)) (hc : Careful db (.cmd f c)) :
    Inv (execute f db c).2 := by
  unfold execute
  refine Next.save h ?_ f
  cases c with
  | cloudCreate n k i => exact next_cloud_create h n k i hn
  | cloudDrop n i => exact next_cloud_drop h n i
  | cloudRename n m i => exact next_cloud_rename h n m i hn.1 hn.2
  | storageCreate n c i mf af => exact next_storage_create h n c i mf af
  | storageDrop n i df => exact next_storage_drop h n i df
  | storageAlter n c e i mf df af =>
    refine next_storage_alter h n c e i mf df af ?_
    intro x hx
    subst hx
    exact hc
  | storageRename n m i => exact next_storage_rename h n m i
  | pipelineAlter cs => exact next_pipeline_alter h cs hc

end Verif.C40
