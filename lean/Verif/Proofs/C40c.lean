import Verif.Proofs.C40b

namespace Verif.C40
open Sto
open C39 (pairwise_inj)

theorem openClouds_names : ∀ (l : List Bytes) (u : Nat), (openClouds u l).map (·.name) = l
  | [], _ => rfl
  | n :: l, u => by simp [openClouds, openClouds_names l]

theorem openClouds_mem : ∀ (l : List Bytes) (u : Nat), ∀ c ∈ openClouds u l, u ≤ c.uid ∧ c.uid < u + l.length ∧ c.refs = 0
  | [], _, c, h => by cases h
  | n :: l, u, c, h => by
    simp only [openClouds, List.mem_cons] at h
    rcases h with rfl | h
    · simp
    · have := openClouds_mem l (u + 1) c h
      simp only [List.length_cons]
      omega

theorem openClouds_uids : ∀ (l : List Bytes) (u : Nat), ((openClouds u l).map (·.uid)).Pairwise (· ≠ ·)
  | [], _ => List.Pairwise.nil
  | n :: l, u => by
    simp only [openClouds, List.map_cons, List.pairwise_cons]
    refine ⟨?_, openClouds_uids l (u + 1)⟩
    intro a ha
    obtain ⟨c, hc, rfl⟩ := List.mem_map.1 ha
    have := openClouds_mem l (u + 1) c hc
    omega

theorem core_clouds (v : Vars) (h : Loadable v) :
    Core { clouds := openClouds 0 v.clouds, vars := v, file := v, next := v.clouds.length } := by
  refine
    { cu := openClouds_uids _ _
      cn := ?_
      cname := by rw [openClouds_names]; exact h.clouds
      cne := ?_
      su := List.Pairwise.nil
      sn := fun _ h => by cases h
      sname := List.Pairwise.nil
      tier := fun _ h => by cases h
      cloud := fun _ h => by cases h
      srefs := fun _ h => by cases h
      crefs := ?_
      tname := List.Pairwise.nil }
  · intro c hc
    have := openClouds_mem _ _ c hc
    show c.uid < v.clouds.length
    omega
  · intro c hc
    have : c.name ∈ (openClouds 0 v.clouds).map (·.name) := List.mem_map_of_mem hc
    rw [openClouds_names] at this
    exact h.cne _ this
  · intro c hc
    rw [(openClouds_mem _ _ c hc).2.2]
    rfl

theorem parts_nil {db : Db} (h : db.storages = []) : Parts db := by
  refine ⟨fun _ => (0, 0), ⟨?_, ?_⟩, ?_⟩
  · rw [h]; exact List.Pairwise.nil
  · rw [h]; intro s hs; cases hs
  · rw [h]; intro s hs; cases hs

theorem set_cloud_exists {db : Db} (u : Nat) (cn : Bytes) (h : cn = [] ∨ cn ∈ db.clouds.map (·.name)) :
    ∃ db', storage_set_cloud db u cn false = (.ok (), db') := by
  unfold storage_set_cloud
  split
  · exact ⟨_, rfl⟩
  · rename_i hn
    rcases h with h | h
    · exact absurd h hn
    · split
      · rename_i hf
        obtain ⟨c, hc, e⟩ := List.mem_map.1 h
        exact absurd e (findCloud_none hf c hc)
      · exact ⟨_, rfl⟩

theorem openStorages_ok : ∀ (l : List (Bytes × Bytes)) (db : Db), Core db → Parts db →
    ((db.storages.map (·.name)) ++ l.map (·.1)).Pairwise (· ≠ ·) →
    (∀ x ∈ l, x.2 = [] ∨ x.2 ∈ db.clouds.map (·.name)) →
    ∃ db', openStorages db l = .ok db' ∧ Core db' ∧ Parts db' ∧ db'.clouds.map (·.name) = db.clouds.map (·.name) ∧
      db'.storages.map (fun s => (s.name, s.cloudName)) = db.storages.map (fun s => (s.name, s.cloudName)) ++ l ∧
      db'.tiers = db.tiers ∧ db'.vars = db.vars ∧ db'.file = db.file
  | [], db, hc, hp, _, _ => ⟨db, rfl, hc, hp, rfl, by simp, rfl, rfl, rfl⟩
  | (n, cn) :: l, db, hc, hp, hn, hcl => by
    have hfresh : ∀ s ∈ db.storages, s.name ≠ n := by
      intro s hs
      rw [List.pairwise_append] at hn
      exact hn.2.2 s.name (List.mem_map_of_mem hs) n (List.mem_cons_self ..)
    obtain ⟨db1, e⟩ := set_cloud_exists (db := { db with
        storages := db.storages ++ [{ uid := db.next, name := n, cloudName := cn }]
        next := db.next + 1 }) db.next cn (hcl (n, cn) (List.mem_cons_self ..))
    obtain ⟨k1, k2, k3, k4, k5, k6, k7⟩ := set_cloud_new hc hp n cn false hfresh e
    have names : db1.storages.map (·.name) = db.storages.map (·.name) ++ [n] := by
      have := congrArg (List.map Prod.fst) k4
      simpa [List.map_map, Function.comp_def] using this
    obtain ⟨db2, j0, j1, j2, j3, j4, j5, j6, j7⟩ := openStorages_ok l db1 k1 k2
      (by rw [names]; simpa using hn) (by rw [k3]; exact fun x hx => hcl x (List.mem_cons_of_mem _ hx))
    refine ⟨db2, ?_, j1, j2, j3.trans k3, ?_, j5.trans k5, j6.trans k6, j7.trans k7⟩
    · rw [openStorages, e]
      exact j0
    · rw [j4, k4]; simp

theorem openTiers_ok : ∀ (l : List Sto.TierConfig) (db : Db), Core db → Parts db →
    ((db.tiers.map (·.config.name)) ++ l.map (·.name)).Pairwise (· ≠ ·) →
    (∀ x ∈ l, x.name ∈ db.storages.map (·.name)) →
    ∃ db', openTiers db l = .ok db' ∧ Core db' ∧ Parts db' ∧ db'.clouds = db.clouds ∧
      db'.storages.map (fun s => (s.name, s.cloudName)) = db.storages.map (fun s => (s.name, s.cloudName)) ∧
      db'.tiers.map (·.config) = db.tiers.map (·.config) ++ l ∧ db'.vars = db.vars ∧ db'.file = db.file
  | [], db, hc, hp, _, _ => ⟨db, rfl, hc, hp, rfl, rfl, by simp, rfl, rfl⟩
  | c :: l, db, hc, hp, hn, hs => by
    cases hf : findStorage db c.name with
    | none =>
      obtain ⟨s, h1, h2⟩ := List.mem_map.1 (hs c (List.mem_cons_self ..))
      exact absurd h2 (findStorage_none hf s h1)
    | some s =>
      obtain ⟨h1, h2⟩ := findStorage_some hf
      have core := hc.retier (db.tiers ++ [{ storage := s.uid, config := c }])
        (fun x => if x.uid = s.uid then x.refs + 1 else x.refs)
        (by
          intro t ht
          rcases List.mem_append.1 ht with ht | ht
          · exact hc.tier t ht
          · rw [List.mem_singleton.1 ht]; exact ⟨s, h1, rfl, h2⟩)
        (by
          rw [List.map_cons, List.append_cons, List.pairwise_append] at hn
          simpa using hn.1)
        (by
          intro x hx
          rw [List.countP_append, hc.srefs x hx]
          by_cases e : x.uid = s.uid
          · simp [e]
          · have : ¬ s.uid = x.uid := fun k => e k.symm
            simp [e, this])
      have estor : (onStorage { db with tiers := db.tiers ++ [{ storage := s.uid, config := c }] } s.uid
          fun s => { s with refs := s.refs + 1 }).storages =
          db.storages.map (fun x => { x with refs := if x.uid = s.uid then x.refs + 1 else x.refs }) := by
        simp only [onStorage]
        apply List.map_congr_left
        intro x _
        split <;> rfl
      have edb : (onStorage { db with tiers := db.tiers ++ [{ storage := s.uid, config := c }] } s.uid
          fun s => { s with refs := s.refs + 1 }) =
          { db with
            storages := db.storages.map (fun x => { x with refs := if x.uid = s.uid then x.refs + 1 else x.refs })
            tiers := db.tiers ++ [{ storage := s.uid, config := c }] } := by
        rw [← estor]
        rfl
      obtain ⟨db2, j0, j1, j2, j3, j4, j5, j6, j7⟩ := openTiers_ok l
        { db with
          storages := db.storages.map (fun x => { x with refs := if x.uid = s.uid then x.refs + 1 else x.refs })
          tiers := db.tiers ++ [{ storage := s.uid, config := c }] } core
        (hp.map _ rfl (fun s => ⟨rfl, rfl, rfl, rfl, rfl⟩))
        (by simpa using hn)
        (by
          intro x hx
          simp only [List.map_map]
          exact hs x (List.mem_cons_of_mem _ hx))
      refine ⟨db2, ?_, j1, j2, j3, ?_, ?_, j6, j7⟩
      · rw [openTiers, hf]
        dsimp only
        rw [edb]
        exact j0
      · rw [j4, List.map_map]; rfl
      · rw [j5]; simp

/-- A configuration without dangling names opens. -/
theorem Loadable.open {v : Vars} (h : Loadable v) :
    ∃ db, open_ v = .ok db ∧ Inv db ∧ db.clouds.map (·.name) = v.clouds ∧
      (∃ more, db.storages.map (fun s => (s.name, s.cloudName)) = v.storages ++ more ∧ ∀ x ∈ more, x = (Decode.cstr "main", [])) ∧
      db.tiers.map (·.config) = v.tiers := by
  obtain ⟨db1, j0, j1, j2, j3, j4, j5, j6, j7⟩ := openStorages_ok v.storages _ (core_clouds v h) (parts_nil rfl)
    (by simpa using h.storages) (by
      intro x hx
      dsimp only
      rw [openClouds_names]
      exact h.cloud x hx)
  dsimp only at j3 j4 j5 j6 j7
  rw [openClouds_names] at j3
  simp only [List.map_nil, List.nil_append] at j4
  have main : ∃ db2, storage_create db1 (Decode.cstr "main") [] true false false = (.ok (), db2) ∧ Core db2 ∧ Parts db2 ∧
      db2.clouds.map (·.name) = v.clouds ∧
      (∃ more, db2.storages.map (fun s => (s.name, s.cloudName)) = v.storages ++ more ∧ ∀ x ∈ more, x = (Decode.cstr "main", [])) ∧
      db2.tiers = [] ∧ db2.vars.clouds = v.clouds ∧ db2.vars.tiers = v.tiers ∧
      db2.vars.storages = db2.storages.map (fun s => (s.name, s.cloudName)) ∧ db2.file = v := by
    unfold storage_create
    split
    · simp only [if_true]
      exact ⟨db1, rfl, j1, j2, j3, ⟨[], by simpa using j4, by simp⟩, j5, by rw [j6], by rw [j6], by rw [j6, j4], j7⟩
    · rename_i hf
      simp only [Bool.false_eq_true, if_false]
      have e : storage_set_cloud
          { db1 with
            storages := db1.storages ++ [{ uid := db1.next, name := Decode.cstr "main", cloudName := [] }]
            next := db1.next + 1 } db1.next [] false = (.ok (), { db1 with
            storages := db1.storages ++ [{ uid := db1.next, name := Decode.cstr "main", cloudName := [] }]
            next := db1.next + 1 }) := if_pos rfl
      obtain ⟨k1, k2, k3, k4, k5, k6, k7⟩ := set_cloud_new j1 j2 (Decode.cstr "main") [] false (findStorage_none hf) e
      rw [e]
      refine ⟨_, rfl, k1.of rfl, k2.of rfl, j3, ⟨[(Decode.cstr "main", [])], ?_, by simp⟩, j5, ?_, ?_, rfl, j7⟩
      · exact k4.trans (by rw [j4])
      · show db1.vars.clouds = _; rw [j6]
      · show db1.vars.tiers = _; rw [j6]
  obtain ⟨db2, m0, m1, m2, m3, m4, m5, m6, m7, m8, m9⟩ := main
  obtain ⟨more, me, mm⟩ := m4
  have hin : ∀ x ∈ v.tiers, x.name ∈ db2.storages.map (·.name) := by
    intro x hx
    have e := congrArg (List.map Prod.fst) me
    simp only [List.map_map, List.map_append] at e
    have e' : db2.storages.map (·.name) = v.storages.map (·.1) ++ more.map (·.1) := e
    rw [e']
    exact List.mem_append_left _ (h.tiers x hx)
  obtain ⟨db3, t0, t1, t2, t3, t4, t5, t6, t7⟩ := openTiers_ok v.tiers db2 m1 m2
    (by rw [m5]; simpa using h.tname) hin
  rw [m5] at t5
  simp only [List.map_nil, List.nil_append] at t5
  refine ⟨db3, ?_, ⟨t1, ?_, ?_, t2⟩, by rw [t3, m3], ⟨more, by rw [t4, me], mm⟩, t5⟩
  · unfold open_
    rw [j0]
    simp only [Res.bind_ok]
    rw [m0]
    exact t0
  · unfold Synced
    rw [t6, t5, t4, t3, m3, ← m8, ← m7, ← m6]
  · rw [t7, m9]; exact h

theorem inv_fresh : Inv fresh := by
  refine ⟨?_, rfl, ?_, ?_⟩
  · refine ⟨List.Pairwise.nil, by simp [fresh], List.Pairwise.nil, by simp [fresh], List.pairwise_singleton _ _, by simp [fresh],
      List.pairwise_singleton _ _, by simp [fresh], by simp [fresh], by simp [fresh], by simp [fresh], List.Pairwise.nil⟩
  · refine ⟨List.Pairwise.nil, by simp [fresh], List.Pairwise.nil, by simp [fresh], by simp [fresh], List.Pairwise.nil⟩
  · have : Parts { fresh with storages := [] } := parts_nil rfl
    exact this.append (db' := fresh) { uid := 0, name := Decode.cstr "main" } rfl (by simp) rfl ⟨rfl, rfl, rfl⟩

theorem inv_step {db : Db} (h : Inv db) (s : Step) (hn : Named s) (hc : Careful db s) : ∃ db', step db s = some db' ∧ Inv db' := by
  cases s with
  | cmd f c => exact ⟨_, rfl, h.cmd f c hn hc⟩
  | part op => exact ⟨_, rfl, h.part op hn⟩
  | reopen =>
    obtain ⟨db', e, k, _⟩ := h.file.open
    refine ⟨db', ?_, k⟩
    show (match open_ db.file with | .ok db => some db | _ => none) = _
    rw [e]

theorem inv_run : ∀ (l : List Step) {db : Db}, Inv db → (∀ s ∈ l, Named s) → CarefulAll db l → ∃ db', run db l = some db' ∧ Inv db'
  | [], db, h, _, _ => ⟨db, rfl, h⟩
  | s :: l, db, h, hn, hc => by
    obtain ⟨db1, e, k⟩ := inv_step h s (hn s (List.mem_cons_self ..)) hc.1
    obtain ⟨db2, e2, k2⟩ := inv_run l k (fun x hx => hn x (List.mem_cons_of_mem _ hx)) (hc.2 db1 e)
    exact ⟨db2, by rw [run, e]; exact e2, k2⟩

theorem Loadable.loads {v : Vars} (h : Loadable v) : Loads v := by
  obtain ⟨db, e, k, k1, k2, k3⟩ := h.open
  exact ⟨db, e, k1, k2, k3, k.core.tier, k.core.cloud⟩

theorem Inv.protected {db : Db} (h : Inv db) : Protected db := by
  refine ⟨?_, ?_, ?_⟩
  · intro name f i d hu
    show ∃ m, andThen (storage_drop db name i d) (saveConfig f) = (.err m, db)
    unfold storage_drop
    split
    · exact ⟨_, rfl⟩
    · have hex : ∃ s ∈ db.storages, s.name = name ∧ (s.parts ≠ [] ∨ ∃ t ∈ db.tiers, t.storage = s.uid) := by
        rcases hu with ⟨s, h1, h2, h3⟩ | ⟨t, h1, h2⟩
        · exact ⟨s, h1, h2, .inl h3⟩
        · obtain ⟨s, hs, e1, e2⟩ := h.core.tier t h1
          exact ⟨s, hs, e2.trans h2, .inr ⟨t, h1, e1.symm⟩⟩
      obtain ⟨s0, h1, h2, h3⟩ := hex
      split
      · rename_i hf
        exact absurd h2 (findStorage_none hf s0 h1)
      · rename_i s hf
        have : s = s0 := h.core.snm (findStorage_some hf).1 h1 ((findStorage_some hf).2.trans h2.symm)
        subst this
        rw [apply_ite (f := fun x => ∃ m, andThen x (saveConfig f) = (Res.err m, db))]
        split
        · exact ⟨_, rfl⟩
        · rename_i hr
          rcases h3 with h3 | ⟨t, ht, e⟩
          · have hl := h.parts.count s h1
            have : 0 < s.parts.length := List.length_pos_iff.2 h3
            rw [if_pos (by omega)]
            exact ⟨_, rfl⟩
          · have := h.core.srefs s h1
            have : 0 < db.tiers.countP (fun t => t.storage = s.uid) := List.countP_pos_iff.2 ⟨t, ht, by simp [e]⟩
            omega
  · intro name f i hne hu
    show ∃ m, andThen (cloud_drop db name i) (saveConfig f) = (.err m, db)
    obtain ⟨s, hs, e⟩ := hu
    rcases h.core.cloud s hs with ⟨e1, _⟩ | ⟨c0, hc0, e1, e2⟩
    · exact absurd (e.symm.trans e1) hne
    · unfold cloud_drop
      split
      · rename_i hf
        exact absurd (e2.trans e) (findCloud_none hf c0 hc0)
      · rename_i c hf
        have : c = c0 := h.core.cnm (findCloud_some hf).1 hc0 ((findCloud_some hf).2.trans (e2.trans e).symm)
        subst this
        have := h.core.crefs c hc0
        have : 0 < db.storages.countP (fun s => s.cloud = some c.uid) := List.countP_pos_iff.2 ⟨s, hs, by simp [e1]⟩
        rw [if_pos (by omega)]
        exact ⟨_, rfl⟩
  · intro s hs hp f cloud e i mf df af
    show ∃ m, andThen (storage_alter db s.name (some cloud) e i mf df af) (saveConfig f) = (.err m, db)
    have hf : findStorage db s.name = some s := by
      cases hf : findStorage db s.name with
      | none => exact absurd rfl (findStorage_none hf s hs)
      | some s' => rw [h.core.snm (findStorage_some hf).1 hs (findStorage_some hf).2]
    have ha : (s.parts.any fun p => p.state.cloud) = true := by
      rw [List.any_eq_true]
      exact hp
    unfold storage_alter
    rw [hf]
    dsimp only
    rw [if_pos ha]
    split
    · exact ⟨_, rfl⟩
    split <;> exact ⟨_, rfl⟩

theorem Inv.holds {db : Db} (h : Inv db) : Holds db :=
  ⟨⟨h.core.sname, h.core.cname⟩, h.protected, h.file.loads, (h.core.loadable h.synced).loads⟩

theorem andThen_save (db : Db) (f : Bool) : (andThen (.ok (), db) (saveConfig f)).2 = { db with file := if f then db.file else db.vars } := by
  cases f <;> rfl

theorem Inv.renameStorage {db : Db} (h : Inv db) (f i : Bool) (n m : Bytes) (hs : ∃ s ∈ db.storages, s.name = n)
    (hm : ∀ s ∈ db.storages, s.name ≠ m) (hn : n ≠ Decode.cstr "main") :
    StorageRenamed n m db (execute f db (.storageRename n m i)).2 := by
  obtain ⟨s, h1, h2⟩ := hs
  have hf : findStorage db n = some s := by
    cases hf : findStorage db n with
    | none => exact absurd h2 (findStorage_none hf s h1)
    | some s' => rw [h.core.snm (findStorage_some hf).1 h1 ((findStorage_some hf).2.trans h2.symm)]
  have hf2 : findStorage db m = none := by
    cases hf : findStorage db m with
    | none => rfl
    | some s' => exact absurd (findStorage_some hf).2 (hm _ (findStorage_some hf).1)
  have e : storage_rename db n m i = (.ok (), saveStorages (onStorage db s.uid fun s => { s with name := m })) := by
    unfold storage_rename
    rw [if_neg hn, hf]
    dsimp only
    rw [hf2]
  show StorageRenamed n m db (andThen (andThen (storage_rename db n m i) fun db => (.ok (), pipeline_rename db n m)) (saveConfig f)).2
  rw [e]
  show StorageRenamed n m db (andThen (.ok (), pipeline_rename (saveStorages (onStorage db s.uid fun s => { s with name := m })) n m)
    (saveConfig f)).2
  rw [andThen_save]
  have es : (onStorage db s.uid fun s => { s with name := m }).storages =
      db.storages.map (fun s => { s with name := renamed n m s.name }) := by
    apply List.map_congr_left
    intro x hx
    by_cases e : x.uid = s.uid
    · rw [if_pos e]
      have := h.core.sid hx h1 e
      subst this
      simp only [renamed, h2, if_true]
    · rw [if_neg e]
      have : ¬ x.name = n := fun k => e (by rw [h.core.snm hx h1 (k.trans h2.symm)])
      simp only [renamed, if_neg this]
  have et : ∀ t : Tier, (if t.config.name = n then { t with config := { t.config with name := m } } else t) =
      { t with config := { t.config with name := renamed n m t.config.name } } := by
    intro t
    unfold renamed
    split <;> rfl
  by_cases ha : (db.tiers.any fun t => t.config.name = n) = true
  · have e : pipeline_rename (saveStorages (onStorage db s.uid fun s => { s with name := m })) n m =
        savePipeline { saveStorages (onStorage db s.uid fun s => { s with name := m }) with tiers := renameFirst n m db.tiers } :=
      if_pos ha
    rw [e, renameFirst_eq _ _ _ h.core.tname]
    exact ⟨es, List.map_congr_left (fun t _ => et t), rfl⟩
  · have e : pipeline_rename (saveStorages (onStorage db s.uid fun s => { s with name := m })) n m =
        saveStorages (onStorage db s.uid fun s => { s with name := m }) := if_neg ha
    rw [e]
    refine ⟨es, ?_, rfl⟩
    symm
    apply map_id_of
    intro t ht
    rw [← et]
    refine if_neg fun e => ha ?_
    rw [List.any_eq_true]
    exact ⟨t, ht, by simpa using e⟩

theorem Inv.renameCloud {db : Db} (h : Inv db) (f i : Bool) (n m : Bytes) (hs : ∃ s ∈ db.clouds, s.name = n)
    (hm : ∀ s ∈ db.clouds, s.name ≠ m) :
    CloudRenamed n m db (execute f db (.cloudRename n m i)).2 := by
  obtain ⟨s, h1, h2⟩ := hs
  have hf : findCloud db n = some s := by
    cases hf : findCloud db n with
    | none => exact absurd h2 (findCloud_none hf s h1)
    | some s' => rw [h.core.cnm (findCloud_some hf).1 h1 ((findCloud_some hf).2.trans h2.symm)]
  have hf2 : findCloud db m = none := by
    cases hf : findCloud db m with
    | none => rfl
    | some s' => exact absurd (findCloud_some hf).2 (hm _ (findCloud_some hf).1)
  have e : cloud_rename db n m i = (.ok (), saveClouds (onCloud db s.uid fun s => { s with name := m })) := by
    unfold cloud_rename
    rw [hf]
    dsimp only
    rw [hf2]
  show CloudRenamed n m db (andThen (andThen (cloud_rename db n m i) fun db => (.ok (), storage_rename_cloud db n m)) (saveConfig f)).2
  rw [e]
  show CloudRenamed n m db (andThen (.ok (), storage_rename_cloud (saveClouds (onCloud db s.uid fun s => { s with name := m })) n m)
    (saveConfig f)).2
  rw [andThen_save]
  refine ⟨?_, ?_, rfl⟩
  · apply List.map_congr_left
    intro x _
    unfold renamed
    split <;> rfl
  · apply List.map_congr_left
    intro x hx
    by_cases e : x.uid = s.uid
    · rw [if_pos e]
      have := h.core.cid hx h1 e
      subst this
      simp only [renamed, h2, if_true]
    · rw [if_neg e]
      have : ¬ x.name = n := fun k => e (by rw [h.core.cnm hx h1 (k.trans h2.symm)])
      simp only [renamed, if_neg this]

end Verif.C40
