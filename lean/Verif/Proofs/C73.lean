import Verif.Spec.C73
import Verif.Proofs.C40c

namespace Verif.C73
open Sto
open C40 (Step Named fresh run CarefulAll Careful Core Parts Inv findStorage_some findStorage_none findCloud_some findCloud_none
  map_id_of map_onC map_on on_on)

/-- A command before the configuration file is written. -/
def Does (db : Db) (c : Cmd) (r : Res Unit × Db) : Prop :=
  (∃ m, r = (.err m, db) ∧ (want (ofDb db) c = none ∨ Outside db c)) ∨
  (∃ db', r = (.ok (), db') ∧ want (ofDb db) c = some (ofDb db') ∧ Kept db db')

theorem Kept.refl (db : Db) : Kept db db := ⟨fun s h _ => ⟨s, h, rfl, rfl⟩, fun s h _ => ⟨s, h, rfl, rfl⟩⟩

theorem Kept.of {db db' : Db} (e : db'.storages = db.storages) : Kept db db' := by
  unfold Kept; rw [e]; exact Kept.refl db

theorem Kept.map {db db' : Db} (f : Storage → Storage) (e : db'.storages = db.storages.map f)
    (hf : ∀ s, (f s).uid = s.uid ∧ (f s).parts = s.parts) : Kept db db' := by
  refine ⟨fun s hs _ => ⟨f s, by rw [e]; exact List.mem_map.2 ⟨s, hs, rfl⟩, hf s⟩, fun s' hs' _ => ?_⟩
  rw [e] at hs'
  obtain ⟨s, hs, rfl⟩ := List.mem_map.1 hs'
  exact ⟨s, hs, (hf s).1.symm, (hf s).2.symm⟩

theorem mem_clouds {db : Db} {n : Bytes} {c : Cloud} (h : findCloud db n = some c) : n ∈ (ofDb db).clouds :=
  List.mem_map.2 ⟨c, (findCloud_some h).1, (findCloud_some h).2⟩

theorem not_mem_clouds {db : Db} {n : Bytes} (h : findCloud db n = none) : n ∉ (ofDb db).clouds := by
  intro hm
  obtain ⟨c, hc, e⟩ := List.mem_map.1 hm
  exact findCloud_none h c hc e

theorem snames (db : Db) : (ofDb db).storages.map (·.1) = db.storages.map (·.name) := by
  simp [ofDb]

theorem mem_storages {db : Db} {n : Bytes} {c : Storage} (h : findStorage db n = some c) : n ∈ (ofDb db).storages.map (·.1) := by
  rw [snames]; exact List.mem_map.2 ⟨c, (findStorage_some h).1, (findStorage_some h).2⟩

theorem not_mem_storages {db : Db} {n : Bytes} (h : findStorage db n = none) : n ∉ (ofDb db).storages.map (·.1) := by
  rw [snames]
  intro hm
  obtain ⟨c, hc, e⟩ := List.mem_map.1 hm
  exact findStorage_none h c hc e

theorem does_cloud_create (db : Db) (n : Bytes) (k i : Bool) : Does db (.cloudCreate n k i) (cloud_create db n k i) := by
  unfold cloud_create
  split
  · rename_i c hf
    have hm := mem_clouds hf
    cases i
    · exact .inl ⟨_, rfl, .inl (by simp only [want]; rw [if_pos hm]; rfl)⟩
    · exact .inr ⟨_, rfl, by simp only [want]; rw [if_pos hm]; rfl, Kept.refl _⟩
  · rename_i hf
    have hm := not_mem_clouds hf
    cases k
    · exact .inl ⟨_, rfl, .inl (by simp only [want]; rw [if_neg hm]; rfl)⟩
    · refine .inr ⟨_, rfl, ?_, Kept.of rfl⟩
      simp only [want]
      rw [if_neg hm]
      simp [ofDb, saveClouds]

theorem map_filter_comm {α β : Type} (f : α → β) (p : α → Bool) (q : β → Bool) (l : List α) (h : ∀ a ∈ l, q (f a) = p a) :
    (l.map f).filter q = (l.filter p).map f := by
  induction l with
  | nil => rfl
  | cons a l ih =>
    rw [List.map_cons, List.filter_cons, List.filter_cons, h a (List.mem_cons_self ..),
      ih fun b hb => h b (List.mem_cons_of_mem _ hb)]
    split <;> rfl

theorem does_cloud_drop {db : Db} (h : Inv db) (n : Bytes) (i : Bool) : Does db (.cloudDrop n i) (cloud_drop db n i) := by
  unfold cloud_drop
  split
  · rename_i hf
    have hm := not_mem_clouds hf
    cases i
    · exact .inl ⟨_, rfl, .inl (by simp only [want]; rw [if_neg hm]; rfl)⟩
    · exact .inr ⟨_, rfl, by simp only [want]; rw [if_neg hm]; rfl, Kept.refl _⟩
  · rename_i c hf
    have hm := mem_clouds hf
    obtain ⟨hc, rfl⟩ := findCloud_some hf
    have hr := h.core.crefs c hc
    have hu : (∃ s ∈ (ofDb db).storages, s.2 = c.name) ↔ c.refs > 0 := by
      rw [hr]
      constructor
      · rintro ⟨x, hx, e⟩
        obtain ⟨s, hs, rfl⟩ := List.mem_map.1 hx
        have : 0 < db.storages.countP (fun s => s.cloud = some c.uid) := by
          rw [List.countP_pos_iff]
          refine ⟨s, hs, ?_⟩
          dsimp only at e
          rcases h.core.cloud s hs with ⟨e1, _⟩ | ⟨c', hc', e1, e2⟩
          · exact absurd (e.symm.trans e1) (h.core.cne c hc)
          · rw [h.core.cnm hc' hc (e2.trans e)] at e1
            simpa using e1
        omega
      · intro hp
        have : 0 < db.storages.countP (fun s => s.cloud = some c.uid) := by omega
        rw [List.countP_pos_iff] at this
        obtain ⟨s, hs, e⟩ := this
        refine ⟨_, List.mem_map.2 ⟨s, hs, rfl⟩, ?_⟩
        dsimp only
        rcases h.core.cloud s hs with ⟨_, e1⟩ | ⟨c', hc', e1, e2⟩
        · simp [e1] at e
        · rw [e1] at e
          rw [← e2, h.core.cid hc' hc (by simpa using e)]
    split
    · rename_i hp
      exact .inl ⟨_, rfl, .inl (by simp only [want]; rw [if_pos hm, if_pos (hu.2 hp)])⟩
    · rename_i hp
      refine .inr ⟨_, rfl, ?_, Kept.of rfl⟩
      simp only [want]
      rw [if_pos hm, if_neg (fun k => hp (hu.1 k))]
      simp only [ofDb, saveClouds, Option.some.injEq, Catalog.mk.injEq, and_true]
      apply map_filter_comm
      intro a ha
      simp only [decide_eq_decide]
      exact not_congr ⟨fun e => by rw [h.core.cnm ha hc e], fun e => by rw [h.core.cid ha hc e]⟩

theorem does_cloud_rename {db : Db} (h : Inv db) (n m : Bytes) (i : Bool) (hn : n ≠ []) :
    Does db (.cloudRename n m i) (andThen (cloud_rename db n m i) fun db => (.ok (), storage_rename_cloud db n m)) := by
  unfold cloud_rename
  split
  · rename_i hf
    have hm := not_mem_clouds hf
    cases i
    · exact .inl ⟨_, rfl, .inl (by simp only [want]; rw [if_neg hm]; rfl)⟩
    · have e : db.storages.map (fun s => if s.cloudName = n then { s with cloudName := m } else s) = db.storages := by
        apply map_id_of
        intro s hs
        refine if_neg fun e => ?_
        rcases h.core.cloud s hs with ⟨e1, _⟩ | ⟨c, hc, _, e2⟩
        · exact hn (e.symm.trans e1)
        · exact findCloud_none hf c hc (e2.trans e)
      simp only [if_true, andThen, storage_rename_cloud, e]
      exact .inr ⟨_, rfl, by simp only [want]; rw [if_neg hm]; rfl, Kept.of rfl⟩
  · rename_i c hf
    have hm := mem_clouds hf
    obtain ⟨hc, rfl⟩ := findCloud_some hf
    split
    · rename_i c2 hf2
      have hm2 := mem_clouds hf2
      exact .inl ⟨_, rfl, .inl (by simp only [want]; rw [if_pos hm, if_pos hm2])⟩
    · rename_i hf2
      have hm2 := not_mem_clouds hf2
      refine .inr ⟨_, rfl, ?_, ?_⟩
      · simp only [want]
        rw [if_pos hm, if_neg hm2]
        simp only [storage_rename_cloud, saveStorages, saveClouds, onCloud, ofDb, Option.some.injEq, Catalog.mk.injEq, List.map_map]
        refine ⟨?_, ?_, trivial⟩
        · apply List.map_congr_left
          intro x hx
          simp only [Function.comp, rename]
          by_cases e : x.uid = c.uid
          · rw [if_pos e, h.core.cid hx hc e, if_pos rfl]
          · rw [if_neg e, if_neg fun k => e (by rw [h.core.cnm hx hc k])]
        · apply List.map_congr_left
          intro x _
          simp only [Function.comp, rename]
          split <;> rfl
      · refine Kept.map _ rfl ?_
        intro s
        split <;> exact ⟨rfl, rfl⟩

theorem set_cloud_cases (db : Db) (u : Nat) (cn : Bytes) (af : Bool) :
    (∃ m, storage_set_cloud db u cn af = (.err m, db) ∧ (¬ Known (ofDb db) cn ∨ af = true)) ∨
    (∃ db', storage_set_cloud db u cn af = (.ok (), db')) := by
  unfold storage_set_cloud
  split
  · exact .inr ⟨_, rfl⟩
  · rename_i hc
    split
    · rename_i hf
      refine .inl ⟨_, rfl, .inl ?_⟩
      rintro (e | e)
      · exact hc e
      · exact not_mem_clouds hf e
    · split
      · rename_i ha; exact .inl ⟨_, rfl, .inr ha⟩
      · exact .inr ⟨_, rfl⟩

theorem does_storage_create {db : Db} (h : Inv db) (n c : Bytes) (i mf af : Bool) :
    Does db (.storageCreate n c i mf af) (storage_create db n c i mf af) := by
  unfold storage_create
  split
  · rename_i s hf
    have hm := mem_storages hf
    cases i
    · exact .inl ⟨_, rfl, .inl (by simp only [want]; rw [if_pos hm]; rfl)⟩
    · exact .inr ⟨_, rfl, by simp only [want]; rw [if_pos hm]; rfl, Kept.refl _⟩
  · rename_i hf
    have hm := not_mem_storages hf
    split
    · rename_i hmf
      exact .inl ⟨_, rfl, .inr (.inl hmf)⟩
    · split
      · rename_i r db' e
        obtain ⟨k1, k2, k3, k4, k5, k6, k7⟩ := C40.set_cloud_new h.core h.parts n c af (findStorage_none hf) (C40.set_cloud_ok e)
        refine .inr ⟨_, rfl, ?_, ?_⟩
        · have hk : Known (ofDb db) c := by
            unfold storage_set_cloud at e
            split at e
            · rename_i hc; exact .inl hc
            · split at e
              · cases e
              · rename_i x hx; exact .inr (mem_clouds (db := db) hx)
          simp only [want]
          rw [if_neg hm, if_pos hk]
          simp only [ofDb, saveStorages, Option.some.injEq, Catalog.mk.injEq]
          exact ⟨k3.symm, k4.symm, by rw [k5]⟩
        · have hst : db'.storages = db.storages ++ [{ uid := db.next, name := n, cloudName := c }] ∨
              ∃ x : Cloud, db'.storages =
                (db.storages ++ [({ uid := db.next, name := n, cloudName := c } : Storage)]).map
                  fun s => if s.uid = db.next then { s with cloud := some x.uid } else s := by
            unfold storage_set_cloud at e
            split at e
            · cases e; exact .inl rfl
            · split at e
              · cases e
              · split at e
                · cases e
                · cases e; exact .inr ⟨_, rfl⟩
          have hk : Kept db (saveStorages { db with storages := db.storages ++ [({ uid := db.next, name := n, cloudName := c } : Storage)] }) := by
            refine ⟨fun s hs _ => ⟨s, List.mem_append_left _ hs, rfl, rfl⟩, fun s' hs' hp => ?_⟩
            rcases List.mem_append.1 hs' with hs' | hs'
            · exact ⟨s', hs', rfl, rfl⟩
            · rw [List.mem_singleton.1 hs'] at hp
              exact absurd rfl hp
          rcases hst with e1 | ⟨x, e1⟩
          · unfold Kept
            show (∀ s ∈ db.storages, s.parts ≠ [] → ∃ s' ∈ db'.storages, _) ∧ (∀ s' ∈ db'.storages, _)
            rw [e1]
            exact hk
          · have k := Kept.map (db := saveStorages { db with storages := db.storages ++ [({ uid := db.next, name := n, cloudName := c } : Storage)] })
              (db' := saveStorages db') _ e1 (by intro s; split <;> exact ⟨rfl, rfl⟩)
            refine ⟨fun s hs hp => ?_, fun s' hs' hp => ?_⟩
            · obtain ⟨s1, a1, a2, a3⟩ := hk.1 s hs hp
              obtain ⟨s2, b1, b2, b3⟩ := k.1 s1 a1 (a3 ▸ hp)
              exact ⟨s2, b1, b2.trans a2, b3.trans a3⟩
            · obtain ⟨s1, a1, a2, a3⟩ := k.2 s' hs' hp
              obtain ⟨s2, b1, b2, b3⟩ := hk.2 s1 a1 (a3.symm ▸ hp)
              exact ⟨s2, b1, b2.trans a2, b3.trans a3⟩
      · rename_i r db2 hne hq
        rcases set_cloud_cases { db with
            storages := db.storages ++ [{ uid := db.next, name := n, cloudName := c }]
            next := db.next + 1 } db.next c af with ⟨m, e1, e2⟩ | ⟨db', e1⟩
        · rw [e1] at hq
          cases hq
          refine .inl ⟨m, rfl, ?_⟩
          rcases e2 with e2 | e2
          · refine .inl ?_
            have e3 : ¬ Known (ofDb db) c := e2
            simp only [want]
            rw [if_neg hm, if_neg e3]
          · exact .inr (.inr e2)
        · rw [e1] at hq
          cases hq
          exact (hne () rfl).elim

theorem tiers_name {db : Db} (h : Inv db) {s : Storage} (hs : s ∈ db.storages) :
    s.name ∈ (ofDb db).tiers.map (·.name) ↔ s.refs > 0 := by
  rw [h.core.srefs s hs]
  simp only [ofDb, List.map_map]
  constructor
  · intro hm
    obtain ⟨t, ht, e⟩ := List.mem_map.1 hm
    have : 0 < db.tiers.countP (fun t => t.storage = s.uid) := by
      rw [List.countP_pos_iff]
      refine ⟨t, ht, ?_⟩
      obtain ⟨s', hs', e1, e2⟩ := h.core.tier t ht
      have e3 : t.config.name = s.name := e
      rw [h.core.snm hs' hs (e2.trans e3)] at e1
      simpa using e1.symm
    omega
  · intro hp
    have : 0 < db.tiers.countP (fun t => t.storage = s.uid) := by omega
    rw [List.countP_pos_iff] at this
    obtain ⟨t, ht, e⟩ := this
    obtain ⟨s', hs', e1, e2⟩ := h.core.tier t ht
    refine List.mem_map.2 ⟨t, ht, ?_⟩
    show t.config.name = s.name
    rw [← e2, h.core.sid hs' hs (e1.trans (by simpa using e))]

theorem listCount_pos {db : Db} (h : Inv db) {s : Storage} (hs : s ∈ db.storages) (hp : s.listCount ≠ 0) : HasParts db s.name := by
  refine ⟨s, hs, rfl, fun e => hp ?_⟩
  rw [h.parts.count s hs, e]
  rfl

theorem does_storage_drop {db : Db} (h : Inv db) (n : Bytes) (i df : Bool) : Does db (.storageDrop n i df) (storage_drop db n i df) := by
  unfold storage_drop
  split
  · rename_i hmain
    exact .inl ⟨_, rfl, .inl (by simp only [want]; rw [if_pos hmain])⟩
  · rename_i hmain
    split
    · rename_i hf
      have hm := not_mem_storages hf
      cases i
      · exact .inl ⟨_, rfl, .inl (by simp only [want]; rw [if_neg hmain, if_neg hm]; rfl)⟩
      · exact .inr ⟨_, rfl, by simp only [want]; rw [if_neg hmain, if_neg hm]; rfl, Kept.refl _⟩
    · rename_i s hf
      have hm := mem_storages hf
      obtain ⟨hs, rfl⟩ := findStorage_some hf
      have ht := tiers_name h hs
      split
      · rename_i hr
        exact .inl ⟨_, rfl, .inl (by simp only [want]; rw [if_neg hmain, if_pos hm, if_pos (ht.2 hr)])⟩
      · rename_i hr
        split
        · rename_i hl
          exact .inl ⟨_, rfl, .inr (.inr (listCount_pos h hs (by omega)))⟩
        · rename_i hl
          have hpe : s.parts = [] := by
            have := h.parts.count s hs
            exact List.eq_nil_of_length_eq_zero (by omega)
          have hw : ∀ cl : List Cloud, cl.map (·.name) = db.clouds.map (·.name) →
              want (ofDb db) (.storageDrop s.name i df) = some
                { clouds := cl.map (·.name)
                  storages := (db.storages.filter fun x => x.uid ≠ s.uid).map fun s => (s.name, s.cloudName)
                  tiers := db.tiers.map (·.config) } := by
            intro cl hcl
            simp only [want]
            rw [if_neg hmain, if_pos hm, if_neg (fun k => hr (ht.1 k)), hcl]
            simp only [ofDb, Option.some.injEq, Catalog.mk.injEq, true_and, and_true]
            apply map_filter_comm
            intro a ha
            simp only [decide_eq_decide]
            exact not_congr ⟨fun e => by rw [h.core.snm ha hs e], fun e => by rw [h.core.sid ha hs e]⟩
          have hk : ∀ db' : Db, db'.storages = db.storages.filter (fun x => x.uid ≠ s.uid) → Kept db db' := by
            intro db' e
            refine ⟨fun x hx hp => ⟨x, ?_, rfl, rfl⟩, fun x hx _ => ⟨x, ?_, rfl, rfl⟩⟩
            · rw [e, List.mem_filter]
              refine ⟨hx, ?_⟩
              simp only [ne_eq, decide_not, Bool.not_eq_true', decide_eq_false_iff_not]
              intro k
              rw [h.core.sid hx hs k] at hp
              exact hp hpe
            · rw [e] at hx; exact (List.mem_filter.1 hx).1
          dsimp only
          split
          · exact .inr ⟨_, rfl, hw db.clouds rfl, hk _ rfl⟩
          · rename_i c hc
            split
            · rename_i hd; exact .inl ⟨_, rfl, .inr (.inl hd)⟩
            · refine .inr ⟨_, rfl, ?_, hk _ rfl⟩
              exact hw _ (map_onC db c (fun c => { c with refs := c.refs - 1 }) (·.name) (fun _ => rfl))

theorem does_storage_alter {db : Db} (h : Inv db) (n : Bytes) (c : Option Bytes) (ne i mf df af : Bool)
    (hc : ∀ x, c = some x → x = [] ∨ ((∃ k ∈ db.clouds, k.name = x) ∧ af = false)) :
    Does db (.storageAlter n c ne i mf df af) (storage_alter db n c ne i mf df af) := by
  unfold storage_alter
  split
  · rename_i hf
    have hm := not_mem_storages hf
    cases i
    · exact .inl ⟨_, rfl, .inl (by simp only [want]; rw [if_neg hm]; rfl)⟩
    · exact .inr ⟨_, rfl, by simp only [want]; rw [if_neg hm]; rfl, Kept.refl _⟩
  · rename_i s hf
    have hm := mem_storages hf
    obtain ⟨hs, rfl⟩ := findStorage_some hf
    split
    · rename_i he
      rw [Bool.and_eq_true] at he
      exact .inl ⟨_, rfl, .inr (.inr (.inr (.inl ⟨he.1, listCount_pos h hs (by simpa using he.2)⟩)))⟩
    · split
      · rename_i he
        rw [Bool.and_eq_true] at he
        exact .inl ⟨_, rfl, .inr (.inl he.2)⟩
      · split
        · exact .inr ⟨_, rfl, by simp only [want]; rw [if_pos hm]; rfl, Kept.of rfl⟩
        · rename_i cn
          split
          · rename_i hany
            rw [List.any_eq_true] at hany
            exact .inl ⟨_, rfl, .inr (.inr (.inr (.inr ⟨rfl, s, hs, rfl, hany⟩)))⟩
          · split
            · rename_i hd
              rw [Bool.and_eq_true] at hd
              exact .inl ⟨_, rfl, .inr (.inr (.inl hd.2))⟩
            · change Does db _ (storage_set_cloud (match s.cloud with
                | none => saveStorages (onStorage db s.uid fun s => { s with cloudName := cn })
                | some c => onCloud (onStorage (saveStorages (onStorage db s.uid fun s => { s with cloudName := cn })) s.uid
                    fun s => { s with cloud := none }) c fun c => { c with refs := c.refs - 1 }) s.uid cn af)
              generalize hdb1 : (match s.cloud with
                | none => saveStorages (onStorage db s.uid fun s => { s with cloudName := cn })
                | some c => onCloud (onStorage (saveStorages (onStorage db s.uid fun s => { s with cloudName := cn })) s.uid
                    fun s => { s with cloud := none }) c fun c => { c with refs := c.refs - 1 }) = db1
              have k1 : (ofDb db1).clouds = (ofDb db).clouds ∧ (ofDb db1).tiers = (ofDb db).tiers ∧
                  (ofDb db1).storages = (ofDb db).storages.map (fun x => if x.1 = s.name then (s.name, cn) else x) ∧
                  ∃ f : Storage → Storage, db1.storages = db.storages.map f ∧ ∀ s, (f s).uid = s.uid ∧ (f s).parts = s.parts := by
                have base : (onStorage db s.uid fun s => { s with cloudName := cn }).storages.map (fun s => (s.name, s.cloudName)) =
                    (ofDb db).storages.map (fun x => if x.1 = s.name then (s.name, cn) else x) := by
                  simp only [ofDb, onStorage, List.map_map]
                  apply List.map_congr_left
                  intro x hx
                  simp only [Function.comp]
                  by_cases e : x.uid = s.uid
                  · rw [if_pos e, h.core.sid hx hs e, if_pos rfl]
                  · rw [if_neg e, if_neg fun k => e (by rw [h.core.snm hx hs k])]
                cases hcl : s.cloud with
                | none =>
                  rw [hcl] at hdb1
                  dsimp only at hdb1
                  subst hdb1
                  refine ⟨rfl, rfl, base, _, rfl, ?_⟩
                  intro s; split <;> exact ⟨rfl, rfl⟩
                | some c =>
                  rw [hcl] at hdb1
                  dsimp only at hdb1
                  subst hdb1
                  refine ⟨map_onC db c (fun c => { c with refs := c.refs - 1 }) (·.name) (fun _ => rfl), rfl, ?_, ?_⟩
                  · rw [← base]
                    exact map_on (saveStorages (onStorage db s.uid fun s => { s with cloudName := cn })) s.uid (fun s => { s with cloud := none })
                      (fun s => (s.name, s.cloudName)) (fun _ _ _ => rfl)
                  · refine ⟨_, by simp only [onCloud, onStorage, saveStorages, List.map_map]; rfl, ?_⟩
                    intro x
                    by_cases e : x.uid = s.uid <;> simp [e]
              obtain ⟨k1, k2, k3, f, k4, k5⟩ := k1
              have hkn : Known (ofDb db) cn := by
                rcases hc cn rfl with e | ⟨⟨x, hx, e⟩, _⟩
                · exact .inl e
                · exact .inr (List.mem_map.2 ⟨x, hx, e⟩)
              have hw : ∀ k : Catalog, k.clouds = (ofDb db1).clouds → k.storages = (ofDb db1).storages → k.tiers = (ofDb db1).tiers →
                  want (ofDb db) (.storageAlter s.name (some cn) ne i mf df af) = some k := by
                intro k e1 e2 e3
                simp only [want]
                rw [if_pos hm, if_pos hkn]
                rw [k1] at e1
                rw [k3] at e2
                rw [k2] at e3
                cases k
                dsimp only at e1 e2 e3
                subst e1 e2 e3
                rfl
              by_cases hcn : cn = []
              · refine .inr ⟨db1, ?_, hw _ rfl rfl rfl, Kept.map f k4 k5⟩
                unfold storage_set_cloud
                rw [if_pos hcn]
              · rcases hc cn rfl with e | ⟨⟨x, hx, e⟩, haf⟩
                · exact absurd e hcn
                · unfold storage_set_cloud
                  rw [if_neg hcn]
                  cases hfc : findCloud db1 cn with
                  | none =>
                    refine absurd ?_ (not_mem_clouds hfc)
                    rw [k1]
                    exact List.mem_map.2 ⟨x, hx, e⟩
                  | some c =>
                    rw [haf]
                    simp only [Bool.false_eq_true, if_false]
                    refine .inr ⟨_, rfl, hw _ ?_ ?_ rfl, ?_⟩
                    · exact map_onC db1 c.uid (fun c => { c with refs := c.refs + 1 }) (·.name) (fun _ => rfl)
                    · exact map_on db1 s.uid (fun s => { s with cloud := some c.uid }) (fun s => (s.name, s.cloudName)) (fun _ _ _ => rfl)
                    · refine Kept.map (fun x => if (f x).uid = s.uid then { (f x) with cloud := some c.uid } else f x) ?_ ?_
                      · simp only [onCloud, onStorage, k4, List.map_map]
                        rfl
                      · intro x
                        split
                        · exact k5 x
                        · exact k5 x

theorem does_storage_rename {db : Db} (h : Inv db) (n m : Bytes) (i : Bool) :
    Does db (.storageRename n m i) (andThen (storage_rename db n m i) fun db => (.ok (), pipeline_rename db n m)) := by
  by_cases hmain : n = Decode.cstr "main"
  · unfold storage_rename
    rw [if_pos hmain]
    exact .inl ⟨_, rfl, .inl (by simp only [want]; rw [if_pos hmain])⟩
  · cases hf : findStorage db n with
    | none =>
      have hm := not_mem_storages hf
      unfold storage_rename
      rw [if_neg hmain, hf]
      cases i
      · exact .inl ⟨_, rfl, .inl (by simp only [want]; rw [if_neg hmain, if_neg hm]; rfl)⟩
      · have : (db.tiers.any fun t => t.config.name = n) = false := by
          rw [List.any_eq_false]
          intro t ht
          simp only [decide_eq_true_eq]
          intro e
          obtain ⟨s, hs, _, e2⟩ := h.core.tier t ht
          exact findStorage_none hf s hs (e2.trans e)
        simp only [if_true, andThen, pipeline_rename, this]
        exact .inr ⟨_, rfl, by simp only [want]; rw [if_neg hmain, if_neg hm]; rfl, Kept.refl _⟩
    | some s =>
      have hm := mem_storages hf
      cases hf2 : findStorage db m with
      | some s2 =>
        have hm2 := mem_storages hf2
        unfold storage_rename
        rw [if_neg hmain, hf]
        dsimp only
        rw [hf2]
        exact .inl ⟨_, rfl, .inl (by simp only [want]; rw [if_neg hmain, if_pos hm, if_pos hm2])⟩
      | none =>
        have hm2 := not_mem_storages hf2
        obtain ⟨hs, hn⟩ := findStorage_some hf
        obtain ⟨e1, e2, e3⟩ := h.renameStorage true i n m ⟨s, hs, hn⟩ (findStorage_none hf2) hmain
        have e : storage_rename db n m i = (.ok (), saveStorages (onStorage db s.uid fun s => { s with name := m })) := by
          unfold storage_rename
          rw [if_neg hmain, hf]
          dsimp only
          rw [hf2]
        simp only [execute] at e1 e2 e3
        rw [e] at e1 e2 e3 ⊢
        simp only [andThen, saveConfig, if_true] at e1 e2 e3 ⊢
        refine .inr ⟨_, rfl, ?_, ?_⟩
        · simp only [want]
          rw [if_neg hmain, if_pos hm, if_neg hm2]
          simp only [ofDb, e1, e2, e3, List.map_map, Option.some.injEq, Catalog.mk.injEq, true_and]
          exact ⟨rfl, rfl⟩
        · exact Kept.map _ e1 (fun s => ⟨rfl, rfl⟩)

theorem limited_iff (c : Sto.TierConfig) : terminal c = true ↔ ¬ Limited c := by
  simp only [terminal, Limited, Bool.and_eq_true, decide_eq_true_eq]
  omega

theorem validate_iff : ∀ cs : List Sto.TierConfig,
    ((∀ x ∈ cs.zip cs.tail, x.1.name ≠ x.2.name ∧ Limited x.1) ∧ alterValidate cs = .ok ()) ∨
    (¬ (∀ x ∈ cs.zip cs.tail, x.1.name ≠ x.2.name ∧ Limited x.1) ∧ ∃ m, alterValidate cs = .err m)
  | [] => .inl ⟨by simp, rfl⟩
  | [c] => .inl ⟨by simp, rfl⟩
  | c :: d :: l => by
    have ih := validate_iff (d :: l)
    have ez : (c :: d :: l).zip (c :: d :: l).tail = (c, d) :: (d :: l).zip (d :: l).tail := rfl
    rw [ez, alterValidate]
    by_cases e : c.name = d.name
    · rw [if_pos e]
      exact .inr ⟨fun k => (k _ (List.mem_cons_self ..)).1 e, _, rfl⟩
    · rw [if_neg e]
      by_cases t : terminal c = true
      · rw [if_pos t]
        exact .inr ⟨fun k => (limited_iff c).1 t (k _ (List.mem_cons_self ..)).2, _, rfl⟩
      · rw [if_neg t]
        have hl : Limited c := Classical.not_not.1 fun k => t ((limited_iff c).2 k)
        rcases ih with ⟨k1, k2⟩ | ⟨k1, k2⟩
        · refine .inl ⟨?_, k2⟩
          intro x hx
          rcases List.mem_cons.1 hx with rfl | hx
          · exact ⟨e, hl⟩
          · exact k1 x hx
        · exact .inr ⟨fun k => k1 fun x hx => k x (List.mem_cons_of_mem _ hx), k2⟩

theorem resolve_none {db : Db} : ∀ {cs : List Sto.TierConfig}, resolve db cs = none → ∃ c ∈ cs, c.name ∉ (ofDb db).storages.map (·.1)
  | [], h => by simp [resolve] at h
  | c :: l, h => by
    rw [resolve] at h
    split at h
    · rename_i hf
      exact ⟨c, List.mem_cons_self .., not_mem_storages hf⟩
    · rw [Option.map_eq_none_iff] at h
      obtain ⟨c', hc', k⟩ := resolve_none h
      exact ⟨c', List.mem_cons_of_mem _ hc', k⟩

theorem does_pipeline_alter {db : Db} (cs : List Sto.TierConfig) : Does db (.pipelineAlter cs) (pipeline_alter db cs) := by
  unfold pipeline_alter
  rcases validate_iff cs with ⟨k1, k2⟩ | ⟨k1, m, k2⟩
  · rw [k2]
    dsimp only
    cases hr : resolve db cs with
    | none =>
      obtain ⟨c, hc, k⟩ := resolve_none hr
      refine .inl ⟨_, rfl, .inl ?_⟩
      simp only [want]
      rw [if_neg fun q => k (q.1 c hc)]
    | some ts =>
      obtain ⟨j1, j2⟩ := C40.resolve_spec hr
      refine .inr ⟨_, rfl, ?_, ?_⟩
      · have hex : ∀ c ∈ cs, c.name ∈ (ofDb db).storages.map (·.1) := by
          intro c hc
          rw [← j1] at hc
          obtain ⟨t, ht, rfl⟩ := List.mem_map.1 hc
          obtain ⟨s, hs, _, e⟩ := j2 t ht
          rw [snames]
          exact List.mem_map.2 ⟨s, hs, e⟩
        simp only [want]
        rw [if_pos ⟨hex, k1⟩, C40.countRefs_eq, C40.countRefs_eq]
        simp only [ofDb, savePipeline, List.map_map, j1]
        rfl
      · rw [C40.countRefs_eq, C40.countRefs_eq]
        refine Kept.map _ (by simp only [savePipeline, List.map_map]; rfl) ?_
        intro s
        exact ⟨rfl, rfl⟩
  · rw [k2]
    refine .inl ⟨_, rfl, .inl ?_⟩
    simp only [want]
    rw [if_neg fun q => k1 q.2]

theorem does {db : Db} (h : Inv db) (c : Cmd) (hn : Named (.cmd false c)) (hc : Careful db (.cmd false c)) :
    ∃ r, Does db c r ∧ C40.Next db r.2 ∧ ∀ f, execute f db c = andThen r (saveConfig f) := by
  refine ⟨_, ?_, ?_, fun f => rfl⟩
  · cases c with
    | cloudCreate n k i => exact does_cloud_create db n k i
    | cloudDrop n i => exact does_cloud_drop h n i
    | cloudRename n m i => exact does_cloud_rename h n m i hn.1
    | storageCreate n c i mf af => exact does_storage_create h n c i mf af
    | storageDrop n i df => exact does_storage_drop h n i df
    | storageAlter n c e i mf df af =>
      refine does_storage_alter h n c e i mf df af ?_
      intro x hx
      subst hx
      exact hc
    | storageRename n m i => exact does_storage_rename h n m i
    | pipelineAlter cs => exact does_pipeline_alter cs
  · cases c with
    | cloudCreate n k i => exact C40.next_cloud_create h n k i hn
    | cloudDrop n i => exact C40.next_cloud_drop h n i
    | cloudRename n m i => exact C40.next_cloud_rename h n m i hn.1 hn.2
    | storageCreate n c i mf af => exact C40.next_storage_create h n c i mf af
    | storageDrop n i df => exact C40.next_storage_drop h n i df
    | storageAlter n c e i mf df af =>
      refine C40.next_storage_alter h n c e i mf df af ?_
      intro x hx
      subst hx
      exact hc
    | storageRename n m i => exact C40.next_storage_rename h n m i
    | pipelineAlter cs => exact C40.next_pipeline_alter h cs hc

/-- A command, with the configuration file written or not. -/
theorem whole {db : Db} (h : Inv db) (c : Cmd) (hn : Named (.cmd false c)) (hc : Careful db (.cmd false c)) :
    (∃ m, (want (ofDb db) c = none ∨ Outside db c) ∧ ∀ f, execute f db c = (.err m, db)) ∨
    (∃ db', want (ofDb db) c = some (ofDb db') ∧ Kept db db' ∧ ofFile db' = ofDb db' ∧
      execute false db c = (.ok (), db') ∧ ∃ m, execute true db c = (.err m, { db' with file := db.file })) := by
  obtain ⟨r, hd, hx, he⟩ := does h c hn hc
  rcases hd with ⟨m, rfl, k⟩ | ⟨db', rfl, k1, k2⟩
  · exact .inl ⟨m, k, fun f => he f⟩
  · have sy := hx.synced
    unfold C40.Synced at sy
    refine .inr ⟨{ db' with file := db'.vars }, k1, k2, ?_, he false, "config_save", ?_⟩
    · show Catalog.mk db'.vars.clouds db'.vars.storages db'.vars.tiers = ofDb db'
      rw [sy]
      rfl
    · rw [he true, ← hx.file]
      rfl

theorem set_cloud_file (db : Db) (u : Nat) (cn : Bytes) (af : Bool) : (storage_set_cloud db u cn af).2.file = db.file := by
  unfold storage_set_cloud
  split
  · rfl
  · split
    · rfl
    · split <;> rfl

theorem andThen_err {r : Res Unit × Db} {g : Db → Res Unit × Db} {f : Vars} (hr : r.2.file = f)
    (hg : ∀ db m, db.file = f → (g db).1 = .err m → (g db).2.file = f) {m : String} (e : (andThen r g).1 = .err m) : (andThen r g).2.file = f := by
  obtain ⟨r1, r2⟩ := r
  unfold andThen at e ⊢
  split
  · rename_i db' he
    cases he
    exact hg _ m hr e
  · exact hr

theorem countRefs_file (n : Int) : ∀ (ts : List Tier) (db : Db), (countRefs db ts n).file = db.file
  | [], _ => rfl
  | t :: ts, db => by
    rw [countRefs, List.foldl_cons]
    exact countRefs_file n ts _

theorem alter_file (db : Db) (n : Bytes) (c : Option Bytes) (ne i mf df af : Bool) :
    (storage_alter db n c ne i mf df af).2.file = db.file := by
  unfold storage_alter
  split
  · split <;> rfl
  · split
    · rfl
    · split
      · rfl
      · split
        · rfl
        · split
          · rfl
          · split
            · rfl
            · dsimp only
              rw [set_cloud_file]
              split <;> rfl

/-- An error leaves the configuration file as it was. -/
theorem file_err (db : Db) (f : Bool) (c : Cmd) (m : String) (e : (execute f db c).1 = .err m) :
    (execute f db c).2.file = db.file := by
  unfold execute at e ⊢
  refine andThen_err ?_ ?_ e
  · cases c with
    | cloudCreate n k i =>
      show (cloud_create db n k i).2.file = _
      unfold cloud_create
      split <;> split <;> rfl
    | cloudDrop n i =>
      show (cloud_drop db n i).2.file = _
      unfold cloud_drop
      split <;> split <;> rfl
    | cloudRename n m i =>
      show (andThen (cloud_rename db n m i) fun db => (.ok (), storage_rename_cloud db n m)).2.file = _
      unfold cloud_rename
      split
      · split <;> rfl
      · split <;> rfl
    | storageCreate n c i mf af =>
      show (storage_create db n c i mf af).2.file = _
      unfold storage_create
      split
      · split <;> rfl
      · split
        · rfl
        · split
          · rename_i e
            have := set_cloud_file { db with
              storages := db.storages ++ [{ uid := db.next, name := n, cloudName := c }]
              next := db.next + 1 } db.next c af
            rw [e] at this
            exact this
          · rfl
    | storageDrop n i df =>
      show (storage_drop db n i df).2.file = _
      unfold storage_drop
      split
      · rfl
      · split
        · split <;> rfl
        · split
          · rfl
          · split
            · rfl
            · dsimp only
              split
              · rfl
              · split <;> rfl
    | storageAlter n c ne i mf df af => exact alter_file db n c ne i mf df af
    | storageRename n m i =>
      show (andThen (storage_rename db n m i) fun db => (.ok (), pipeline_rename db n m)).2.file = _
      unfold storage_rename
      split
      · rfl
      · split
        · split
          · simp only [andThen, pipeline_rename]; split <;> rfl
          · rfl
        · split
          · rfl
          · simp only [andThen, pipeline_rename]; split <;> rfl
    | pipelineAlter cs =>
      show (pipeline_alter db cs).2.file = _
      unfold pipeline_alter
      split
      · split
        · rfl
        · exact (countRefs_file _ _ _).trans (countRefs_file _ _ _)
      · rfl
  · intro db1 m h1 e
    unfold saveConfig at e ⊢
    split
    · exact h1
    · rename_i hf
      rw [if_neg hf] at e
      cases e

end Verif.C73
