import Verif.Spec.C40
import Verif.Proofs.C39

namespace Verif.C40
open Sto
open C39 (pairwise_inj)

/-- The references among clouds, storages and tiers. -/
structure Core (db : Db) : Prop where
  cu : (db.clouds.map (·.uid)).Pairwise (· ≠ ·)
  cn : ∀ c ∈ db.clouds, c.uid < db.next
  cname : (db.clouds.map (·.name)).Pairwise (· ≠ ·)
  cne : ∀ c ∈ db.clouds, c.name ≠ []
  su : (db.storages.map (·.uid)).Pairwise (· ≠ ·)
  sn : ∀ s ∈ db.storages, s.uid < db.next
  sname : (db.storages.map (·.name)).Pairwise (· ≠ ·)
  tier : ∀ t ∈ db.tiers, ∃ s ∈ db.storages, s.uid = t.storage ∧ s.name = t.config.name
  cloud : ∀ s ∈ db.storages, (s.cloudName = [] ∧ s.cloud = none) ∨ ∃ c ∈ db.clouds, s.cloud = some c.uid ∧ c.name = s.cloudName
  srefs : ∀ s ∈ db.storages, s.refs = db.tiers.countP (fun t => t.storage = s.uid)
  crefs : ∀ c ∈ db.clouds, c.refs = db.storages.countP (fun s => s.cloud = some c.uid)
  tname : (db.tiers.map (·.config.name)).Pairwise (· ≠ ·)

/-- The variables are those of the state. -/
def Synced (db : Db) : Prop :=
  db.vars = { clouds := db.clouds.map (·.name), storages := db.storages.map (fun s => (s.name, s.cloudName))
              tiers := db.tiers.map (·.config) }

/-- A saved configuration without dangling names. -/
structure Loadable (v : Vars) : Prop where
  clouds : v.clouds.Pairwise (· ≠ ·)
  cne : ∀ n ∈ v.clouds, n ≠ []
  storages : (v.storages.map (·.1)).Pairwise (· ≠ ·)
  cloud : ∀ x ∈ v.storages, x.2 = [] ∨ x.2 ∈ v.clouds
  tiers : ∀ t ∈ v.tiers, t.name ∈ v.storages.map (·.1)
  tname : (v.tiers.map (·.name)).Pairwise (· ≠ ·)

/-- Partitions are on one storage and counted. -/
def Parts (db : Db) : Prop := ∃ d, C38.Inv d db

/-- The invariant. -/
structure Inv (db : Db) : Prop where
  core : Core db
  synced : Synced db
  file : Loadable db.file
  parts : Parts db

theorem Core.loadable {db : Db} (h : Core db) (hv : Synced db) : Loadable db.vars := by
  rw [hv]
  refine ⟨h.cname, ?_, ?_, ?_, ?_, ?_⟩
  · intro n hn
    obtain ⟨c, hc, rfl⟩ := List.mem_map.1 hn
    exact h.cne c hc
  · simpa [List.map_map, Function.comp_def] using h.sname
  · intro x hx
    obtain ⟨s, hs, rfl⟩ := List.mem_map.1 hx
    rcases h.cloud s hs with ⟨e, _⟩ | ⟨c, hc, _, e⟩
    · exact .inl e
    · exact .inr (List.mem_map.2 ⟨c, hc, e⟩)
  · intro t ht
    obtain ⟨t, ht2, rfl⟩ := List.mem_map.1 ht
    obtain ⟨s, hs, _, e⟩ := h.tier t ht2
    rw [List.map_map]
    exact List.mem_map.2 ⟨s, hs, e⟩
  · simpa [List.map_map, Function.comp_def] using h.tname

theorem findStorage_some {db : Db} {n : Bytes} {s : Storage} (h : findStorage db n = some s) : s ∈ db.storages ∧ s.name = n :=
  ⟨List.mem_of_find?_eq_some h, by simpa using List.find?_some h⟩

theorem findStorage_none {db : Db} {n : Bytes} (h : findStorage db n = none) : ∀ s ∈ db.storages, s.name ≠ n := by
  intro s hs e
  unfold findStorage at h
  rw [List.find?_eq_none] at h
  exact h s hs (by simpa using e)

theorem findCloud_some {db : Db} {n : Bytes} {s : Cloud} (h : findCloud db n = some s) : s ∈ db.clouds ∧ s.name = n :=
  ⟨List.mem_of_find?_eq_some h, by simpa using List.find?_some h⟩

theorem findCloud_none {db : Db} {n : Bytes} (h : findCloud db n = none) : ∀ s ∈ db.clouds, s.name ≠ n := by
  intro s hs e
  unfold findCloud at h
  rw [List.find?_eq_none] at h
  exact h s hs (by simpa using e)

theorem Core.sid {db : Db} (h : Core db) {s t : Storage} (hs : s ∈ db.storages) (ht : t ∈ db.storages) (e : s.uid = t.uid) :
    s = t := pairwise_inj (f := fun s : Storage => s.uid) h.su s hs t ht e

theorem Core.cid {db : Db} (h : Core db) {s t : Cloud} (hs : s ∈ db.clouds) (ht : t ∈ db.clouds) (e : s.uid = t.uid) :
    s = t := pairwise_inj (f := fun s : Cloud => s.uid) h.cu s hs t ht e

theorem Core.snm {db : Db} (h : Core db) {s t : Storage} (hs : s ∈ db.storages) (ht : t ∈ db.storages) (e : s.name = t.name) :
    s = t := pairwise_inj (f := fun s : Storage => s.name) h.sname s hs t ht e

theorem Core.cnm {db : Db} (h : Core db) {s t : Cloud} (hs : s ∈ db.clouds) (ht : t ∈ db.clouds) (e : s.name = t.name) :
    s = t := pairwise_inj (f := fun s : Cloud => s.name) h.cname s hs t ht e

/-! Partitions and the changes of commands. -/

theorem Parts.map {db db' : Db} (f : Storage → Storage) (hs : db'.storages = db.storages.map f)
    (hf : ∀ s, (f s).uid = s.uid ∧ (f s).parts = s.parts ∧ (f s).listCount = s.listCount ∧ (f s).size = s.size ∧ (f s).events = s.events)
    (h : Parts db) : Parts db' := by
  obtain ⟨d, ⟨h1, h2⟩, h3⟩ := h
  refine ⟨d, ⟨?_, ?_⟩, ?_⟩
  · rw [hs, List.pairwise_map]
    refine h1.imp ?_
    intro s t hst
    rw [(hf s).1, (hf t).1, (hf s).2.1, (hf t).2.1]
    exact hst
  · intro s' hs'
    rw [hs] at hs'
    obtain ⟨s, hsm, rfl⟩ := List.mem_map.1 hs'
    rw [(hf s).2.1]
    exact h2 s hsm
  · intro s' hs'
    rw [hs] at hs'
    obtain ⟨s, hsm, rfl⟩ := List.mem_map.1 hs'
    obtain ⟨a, b, c⟩ := h3 s hsm
    refine ⟨?_, ?_, ?_⟩
    · rw [(hf s).2.1, (hf s).2.2.1]; exact a
    · rw [(hf s).1, (hf s).2.1, (hf s).2.2.2.1]; exact b
    · rw [(hf s).1, (hf s).2.1, (hf s).2.2.2.2]; exact c

theorem Parts.filter {db db' : Db} (f : Storage → Bool) (hs : db'.storages = db.storages.filter f) (h : Parts db) : Parts db' := by
  obtain ⟨d, ⟨h1, h2⟩, h3⟩ := h
  refine ⟨d, ⟨?_, ?_⟩, ?_⟩
  · rw [hs]; exact h1.filter _
  · intro s hsm; rw [hs] at hsm; exact h2 s (List.mem_filter.1 hsm).1
  · intro s hsm; rw [hs] at hsm; exact h3 s (List.mem_filter.1 hsm).1

theorem Parts.append {db db' : Db} (s0 : Storage) (hs : db'.storages = db.storages ++ [s0])
    (hn : ∀ s ∈ db.storages, s.uid ≠ s0.uid) (hp : s0.parts = []) (h0 : s0.listCount = 0 ∧ s0.size = 0 ∧ s0.events = 0)
    (h : Parts db) : Parts db' := by
  obtain ⟨d, ⟨h1, h2⟩, h3⟩ := h
  refine ⟨fun u => if u = s0.uid then (0, 0) else d u, ⟨?_, ?_⟩, ?_⟩
  · rw [hs, List.pairwise_append]
    refine ⟨h1, List.pairwise_singleton _ _, ?_⟩
    intro a ha b hb
    rw [List.mem_singleton.1 hb, hp]
    exact ⟨hn a ha, by simp⟩
  · intro s hsm
    rw [hs] at hsm
    rcases List.mem_append.1 hsm with hsm | hsm
    · exact h2 s hsm
    · rw [List.mem_singleton.1 hsm, hp]; exact List.Pairwise.nil
  · intro s hsm
    rw [hs] at hsm
    rcases List.mem_append.1 hsm with hsm | hsm
    · dsimp only
      rw [if_neg (hn s hsm)]; exact h3 s hsm
    · rw [List.mem_singleton.1 hsm]
      dsimp only
      rw [if_pos rfl]
      refine ⟨by rw [hp, h0.1]; rfl, ?_, ?_⟩
      · rw [hp, h0.2.1]; exact C38.wrap0.symm
      · rw [hp, h0.2.2]; exact C38.wrap0.symm

theorem Parts.count {db : Db} (h : Parts db) : ∀ s ∈ db.storages, s.listCount = s.parts.length := by
  obtain ⟨d, _, h3⟩ := h
  exact fun s hs => (h3 s hs).1

/-! Operations on partitions keep the rest. -/

/-- What operations on partitions leave alone. -/
def shape (s : Storage) : Nat × Bytes × Bytes × Option Nat × Int := (s.uid, s.name, s.cloudName, s.cloud, s.refs)

/-- Only partitions differ. -/
def Same (db db' : Db) : Prop :=
  db'.storages.map shape = db.storages.map shape ∧ db'.clouds = db.clouds ∧ db'.tiers = db.tiers ∧ db'.vars = db.vars ∧
    db'.file = db.file ∧ db'.next = db.next

theorem Same.refl (db : Db) : Same db db := ⟨rfl, rfl, rfl, rfl, rfl, rfl⟩

theorem Same.trans {a b c : Db} (h : Same a b) (k : Same b c) : Same a c :=
  ⟨k.1.trans h.1, k.2.1.trans h.2.1, k.2.2.1.trans h.2.2.1, k.2.2.2.1.trans h.2.2.2.1, k.2.2.2.2.1.trans h.2.2.2.2.1,
    k.2.2.2.2.2.trans h.2.2.2.2.2⟩

theorem same_on (db : Db) (u : Nat) (f : Storage → Storage) (h : ∀ s, shape (f s) = shape s) : Same db (onStorage db u f) := by
  refine ⟨?_, rfl, rfl, rfl, rfl, rfl⟩
  simp only [onStorage, List.map_map]
  apply List.map_congr_left
  intro s _
  simp only [Function.comp]
  split
  · exact h s
  · rfl

theorem shape_add (s : Storage) (p : Part) : shape (storage_add s p) = shape s := by
  unfold storage_add addMetrics; split <;> rfl

theorem shape_remove (s : Storage) (p : Part) : shape (storage_remove s p) = shape s := by
  unfold storage_remove removeMetrics; split <;> rfl

theorem shape_set (s : Storage) (p : Part) : shape (setPart s p) = shape s := rfl

theorem shape_addMetrics (s : Storage) (p : Part) : shape (addMetrics s p) = shape s := by
  unfold addMetrics; split <;> rfl

theorem shape_removeMetrics (s : Storage) (p : Part) : shape (removeMetrics s p) = shape s := by
  unfold removeMetrics; split <;> rfl

theorem shape_fold {α : Type} (f : Storage → α → Storage) (hf : ∀ s a, shape (f s a) = shape s) :
    ∀ (l : List α) (s : Storage), shape (l.foldl f s) = shape s
  | [], _ => rfl
  | a :: l, s => (shape_fold f hf l (f s a)).trans (hf s a)

theorem shape_recover (s : Storage) (found : List Found) (keep : Found → Bool) (valid : Found → State) :
    shape (recoverStorage s found keep valid) = shape s := by
  unfold recoverStorage
  dsimp only
  rw [shape_fold _ (fun s f => (shape_addMetrics _ _).trans (shape_set _ _)),
    shape_fold _ (fun s f => shape_remove _ _), shape_fold _ (fun s f => shape_set _ _), shape_fold _ (fun s f => shape_add _ _)]

theorem same_part (db : Db) (op : C38.Op) : Same db (C38.step db op) := by
  cases op with
  | create min now =>
    unfold C38.step
    dsimp only
    split
    · exact .refl _
    · unfold Sto.create
      split
      · exact same_on _ _ _ (fun s => shape_add s _)
      · exact same_on _ _ _ (fun s => shape_add s _)
      · exact .refl _
  | refresh min target size events fails =>
    simp only [C38.step]
    unfold Sto.refresh
    cases refreshBegin db min target with
    | ok r =>
      simp only [Res.bind_ok]
      cases r with
      | none => exact .refl _
      | some x =>
        obtain ⟨p, o, u⟩ := x
        dsimp only
        split
        · exact .refl _
        · unfold refreshApply
          cases deref db o with
          | ok _ =>
            simp only [Res.bind_ok]
            cases deref db u with
            | ok _ =>
              simp only [Res.bind_ok, C38.after]
              exact ((same_on _ _ _ (fun s => shape_remove s _)).trans (same_on _ _ _ (fun s => shape_add s _))).trans
                (same_on _ _ _ (fun s => shape_set s _))
            | _ => exact .refl _
          | _ => exact .refl _
    | _ => exact .refl _
  | dropFile min auto cloud local_ fc fl =>
    rw [C38.step_dropFile]
    rcases C38.dropFile_cases db min auto cloud local_ fc fl with e | ⟨s, p, p', _, _, e, _⟩
    · rw [e]; exact .refl _
    · rw [e]; exact same_on _ _ _ (fun s => shape_set s _)
  | dropRef min =>
    simp only [C38.step]
    unfold Sto.dropRef
    split
    · exact .refl _
    · split
      · exact same_on _ _ _ (fun s => shape_remove s _)
      · exact .refl _
  | download min fails =>
    simp only [C38.step]
    unfold Sto.download
    split
    · exact .refl _
    · split
      · exact .refl _
      · exact same_on _ _ _ (fun s => shape_set s _)
  | upload min fails =>
    simp only [C38.step]
    unfold Sto.upload
    split
    · exact .refl _
    · split
      · exact .refl _
      · exact same_on _ _ _ (fun s => shape_set s _)
  | restart dirs keep valid =>
    refine ⟨?_, rfl, rfl, rfl, rfl, rfl⟩
    simp only [C38.step, List.map_map]
    apply List.map_congr_left
    intro s _
    simp only [Function.comp]
    exact shape_recover _ _ _ _

theorem Same.mem {db db' : Db} (h : Same db db') {s' : Storage} (hs : s' ∈ db'.storages) : ∃ s ∈ db.storages, shape s = shape s' := by
  have : shape s' ∈ db'.storages.map shape := List.mem_map_of_mem hs
  rw [h.1] at this
  obtain ⟨s, h1, h2⟩ := List.mem_map.1 this
  exact ⟨s, h1, h2⟩

theorem Same.mem' {db db' : Db} (h : Same db db') {s : Storage} (hs : s ∈ db.storages) : ∃ s' ∈ db'.storages, shape s' = shape s := by
  have : shape s ∈ db.storages.map shape := List.mem_map_of_mem hs
  rw [← h.1] at this
  obtain ⟨s, h1, h2⟩ := List.mem_map.1 this
  exact ⟨s, h1, h2⟩

theorem Same.proj {α : Type} {db db' : Db} (h : Same db db') (f : Nat × Bytes × Bytes × Option Nat × Int → α) :
    db'.storages.map (fun s => f (shape s)) = db.storages.map (fun s => f (shape s)) := by
  have := congrArg (List.map f) h.1
  simpa [List.map_map, Function.comp_def] using this

theorem Same.countP {db db' : Db} (h : Same db db') (f : Nat × Bytes × Bytes × Option Nat × Int → Bool) :
    db'.storages.countP (fun s => f (shape s)) = db.storages.countP (fun s => f (shape s)) := by
  have := congrArg (List.countP f) h.1
  simpa [List.countP_map, Function.comp_def] using this

theorem Core.same {db db' : Db} (h : Core db) (k : Same db db') : Core db' := by
  obtain ⟨k1, k2, k3, k4, k5, k6⟩ := id k
  refine
    { cu := by rw [k2]; exact h.cu
      cn := by rw [k2, k6]; exact h.cn
      cname := by rw [k2]; exact h.cname
      cne := by rw [k2]; exact h.cne
      su := (k.proj (·.1)) ▸ h.su
      sn := ?_
      sname := (k.proj (·.2.1)) ▸ h.sname
      tier := ?_
      cloud := ?_
      srefs := ?_
      crefs := ?_
      tname := by rw [k3]; exact h.tname }
  · intro s' hs'
    obtain ⟨s, hs, e⟩ := k.mem hs'
    have := h.sn s hs
    simp only [shape, Prod.mk.injEq] at e
    omega
  · intro t ht
    rw [k3] at ht
    obtain ⟨s, hs, e1, e2⟩ := h.tier t ht
    obtain ⟨s', hs', e⟩ := k.mem' hs
    simp only [shape, Prod.mk.injEq] at e
    exact ⟨s', hs', e.1.trans e1, e.2.1.trans e2⟩
  · intro s' hs'
    obtain ⟨s, hs, e⟩ := k.mem hs'
    simp only [shape, Prod.mk.injEq] at e
    rw [← e.2.2.1, ← e.2.2.2.1, k2]
    exact h.cloud s hs
  · intro s' hs'
    obtain ⟨s, hs, e⟩ := k.mem hs'
    simp only [shape, Prod.mk.injEq] at e
    rw [← e.2.2.2.2, ← e.1, k3]
    exact h.srefs s hs
  · intro c hc
    rw [k2] at hc
    rw [h.crefs c hc]
    have := k.countP (fun x => x.2.2.2.1 = some c.uid)
    simp only [shape] at this
    exact congrArg _ this.symm

theorem Inv.part {db : Db} (h : Inv db) (op : C38.Op) (hl : C38.Listing op) : Inv (C38.step db op) := by
  have k := same_part db op
  refine ⟨h.core.same k, ?_, ?_, ?_⟩
  · have e := k.proj (fun x => (x.2.1, x.2.2.1))
    simp only [shape] at e
    unfold Synced
    rw [k.2.1, k.2.2.1, k.2.2.2.1, h.synced, e]
  · rw [k.2.2.2.2.1]; exact h.file
  · obtain ⟨d, hd⟩ := h.parts
    exact ⟨_, C38.inv_step op hd hl⟩

/-! The building blocks of commands. -/

theorem Core.vars {db : Db} (h : Core db) (v f : Vars) : Core { db with vars := v, file := f } :=
  ⟨h.cu, h.cn, h.cname, h.cne, h.su, h.sn, h.sname, h.tier, h.cloud, h.srefs, h.crefs, h.tname⟩

theorem on_on (db : Db) (u : Nat) (f g : Storage → Storage) (hf : ∀ s, (f s).uid = s.uid) :
    onStorage (onStorage db u f) u g = onStorage db u (fun s => g (f s)) := by
  simp only [onStorage, List.map_map]
  congr 1
  apply List.map_congr_left
  intro s _
  simp only [Function.comp]
  by_cases e : s.uid = u
  · rw [if_pos e, if_pos (by rw [hf]; exact e), if_pos e]
  · rw [if_neg e, if_neg e, if_neg e]

theorem map_id_of {α : Type} {l : List α} {f : α → α} (h : ∀ a ∈ l, f a = a) : l.map f = l := by
  induction l with
  | nil => rfl
  | cons a l ih => rw [List.map_cons, h a (List.mem_cons_self ..), ih (fun b hb => h b (List.mem_cons_of_mem _ hb))]

theorem on_fresh (db : Db) (s0 : Storage) (f : Storage → Storage) (n : Nat) (h : ∀ s ∈ db.storages, s.uid ≠ s0.uid) :
    onStorage { db with storages := db.storages ++ [s0], next := n } s0.uid f = { db with storages := db.storages ++ [f s0], next := n } := by
  simp only [onStorage, List.map_append]
  rw [map_id_of (fun s hs => if_neg (h s hs))]
  simp

/-- A new storage without a cloud. -/
theorem Core.append {db : Db} (h : Core db) (name : Bytes) (hn : ∀ s ∈ db.storages, s.name ≠ name)
    (ht : ∀ t ∈ db.tiers, t.config.name ≠ name) :
    Core { db with storages := db.storages ++ [{ uid := db.next, name := name }], next := db.next + 1 } := by
  refine
    { cu := h.cu
      cn := fun c hc => Nat.lt_succ_of_lt (h.cn c hc)
      cname := h.cname
      cne := h.cne
      su := ?_
      sn := ?_
      sname := ?_
      tier := ?_
      cloud := ?_
      srefs := ?_
      crefs := ?_
      tname := h.tname }
  · dsimp only
    rw [List.map_append, List.pairwise_append]
    refine ⟨h.su, List.pairwise_singleton _ _, ?_⟩
    intro a ha b hb
    obtain ⟨s, hs, rfl⟩ := List.mem_map.1 ha
    have := h.sn s hs
    simp at hb
    omega
  · intro s hs
    rcases List.mem_append.1 hs with hs | hs
    · exact Nat.lt_succ_of_lt (h.sn s hs)
    · rw [List.mem_singleton.1 hs]; exact Nat.lt_succ_self _
  · dsimp only
    rw [List.map_append, List.pairwise_append]
    refine ⟨h.sname, List.pairwise_singleton _ _, ?_⟩
    intro a ha b hb
    obtain ⟨s, hs, rfl⟩ := List.mem_map.1 ha
    simp at hb
    rw [hb]
    exact hn s hs
  · intro t ht'
    obtain ⟨s, hs, e⟩ := h.tier t ht'
    exact ⟨s, List.mem_append_left _ hs, e⟩
  · intro s hs
    rcases List.mem_append.1 hs with hs | hs
    · exact h.cloud s hs
    · rw [List.mem_singleton.1 hs]; exact .inl ⟨rfl, rfl⟩
  · intro s hs
    rcases List.mem_append.1 hs with hs | hs
    · exact h.srefs s hs
    · rw [List.mem_singleton.1 hs]
      have : db.tiers.countP (fun t => decide (t.storage = db.next)) = 0 := by
        rw [List.countP_eq_zero]
        intro t ht'
        obtain ⟨s, hs, e, _⟩ := h.tier t ht'
        have := h.sn s hs
        simp only [decide_eq_true_eq]
        omega
      dsimp only
      rw [this]; rfl
  · intro c hc
    rw [h.crefs c hc]
    simp [List.countP_append]

theorem countP_on {db : Db} (h : Core db) {s : Storage} (hs : s ∈ db.storages) (f : Storage → Storage) (p : Storage → Bool)
    (h0 : p s = false) (h1 : p (f s) = true) :
    (onStorage db s.uid f).storages.countP p = db.storages.countP p + 1 := by
  have key : ∀ (l : List Storage), (l.map (·.uid)).Pairwise (· ≠ ·) → s ∈ l →
      (l.map (fun x => if x.uid = s.uid then f x else x)).countP p = l.countP p + 1 := by
    intro l
    induction l with
    | nil => intro _ h; cases h
    | cons a l ih =>
      intro hp hm
      rw [List.map_cons, List.pairwise_cons] at hp
      rw [List.map_cons, List.countP_cons, List.countP_cons]
      rcases List.mem_cons.1 hm with rfl | hm'
      · rw [if_pos rfl, map_id_of, h0, h1]
        · simp
        · intro b hb
          exact if_neg fun e => hp.1 b.uid (List.mem_map_of_mem hb) e.symm
      · rw [if_neg (hp.1 s.uid (List.mem_map_of_mem hm')), ih hp.2 hm']
        omega
  exact key db.storages h.su hs

theorem countP_on_same (db : Db) (u : Nat) (f : Storage → Storage) (p : Storage → Bool)
    (h0 : ∀ s ∈ db.storages, s.uid = u → p (f s) = p s) :
    (onStorage db u f).storages.countP p = db.storages.countP p := by
  have key : ∀ (l : List Storage), (∀ s ∈ l, s.uid = u → p (f s) = p s) →
      (l.map (fun x => if x.uid = u then f x else x)).countP p = l.countP p := by
    intro l
    induction l with
    | nil => intro _; rfl
    | cons a l ih =>
      intro hp
      rw [List.map_cons, List.countP_cons, List.countP_cons, ih (fun s hs => hp s (List.mem_cons_of_mem _ hs))]
      by_cases e : a.uid = u
      · rw [if_pos e, hp a (List.mem_cons_self ..) e]
      · rw [if_neg e]
  exact key db.storages h0

theorem mem_on {db : Db} {u : Nat} {f : Storage → Storage} {s' : Storage} (h : s' ∈ (onStorage db u f).storages) :
    ∃ s ∈ db.storages, s' = if s.uid = u then f s else s := by
  obtain ⟨s, hs, e⟩ := List.mem_map.1 h
  exact ⟨s, hs, e.symm⟩

theorem map_on {α : Type} (db : Db) (u : Nat) (f : Storage → Storage) (g : Storage → α) (h : ∀ s ∈ db.storages, s.uid = u → g (f s) = g s) :
    (onStorage db u f).storages.map g = db.storages.map g := by
  simp only [onStorage, List.map_map]
  apply List.map_congr_left
  intro s hs
  simp only [Function.comp]
  split
  · rename_i e; exact h s hs e
  · rfl

theorem mem_onC {db : Db} {u : Nat} {f : Cloud → Cloud} {s' : Cloud} (h : s' ∈ (onCloud db u f).clouds) :
    ∃ s ∈ db.clouds, s' = if s.uid = u then f s else s := by
  obtain ⟨s, hs, e⟩ := List.mem_map.1 h
  exact ⟨s, hs, e.symm⟩

theorem map_onC {α : Type} (db : Db) (u : Nat) (f : Cloud → Cloud) (g : Cloud → α) (h : ∀ s, g (f s) = g s) :
    (onCloud db u f).clouds.map g = db.clouds.map g := by
  simp only [onCloud, List.map_map]
  apply List.map_congr_left
  intro s _
  simp only [Function.comp]
  split
  · exact h s
  · rfl

/-- Changing the cloud of a storage, and the counts of references to match. -/
theorem Core.recloud {db : Db} (h : Core db) {s : Storage} (hs : s ∈ db.storages) (nm : Bytes) (cl : Option Nat)
    (clouds' : List Cloud)
    (hu : clouds'.map (·.uid) = db.clouds.map (·.uid)) (hnm : clouds'.map (·.name) = db.clouds.map (·.name))
    (hcl : (nm = [] ∧ cl = none) ∨ ∃ c ∈ db.clouds, cl = some c.uid ∧ c.name = nm)
    (hrefs : ∀ c ∈ clouds', c.refs =
      (onStorage db s.uid fun s => { s with cloudName := nm, cloud := cl }).storages.countP (fun s => s.cloud = some c.uid)) :
    Core { onStorage db s.uid (fun s => { s with cloudName := nm, cloud := cl }) with clouds := clouds' } := by
  have back : ∀ c ∈ clouds', ∃ c0 ∈ db.clouds, c0.uid = c.uid := by
    intro c hc
    have : c.uid ∈ clouds'.map (·.uid) := List.mem_map_of_mem hc
    rw [hu] at this
    obtain ⟨c0, h1, h2⟩ := List.mem_map.1 this
    exact ⟨c0, h1, h2⟩
  have pairs : clouds'.map (fun c => (c.uid, c.name)) = db.clouds.map (fun c => (c.uid, c.name)) := by
    apply List.ext_getElem
    · simpa using congrArg List.length hu
    · intro i h1 h2
      have e1 := congrArg (fun l => l[i]?) hu
      have e2 := congrArg (fun l => l[i]?) hnm
      simp at h1 h2 e1 e2
      simp [h1, h2] at e1 e2
      simp [e1, e2]
  have fwd : ∀ c ∈ db.clouds, ∃ c' ∈ clouds', c'.uid = c.uid ∧ c'.name = c.name := by
    intro c hc
    have : (c.uid, c.name) ∈ db.clouds.map (fun c => (c.uid, c.name)) := List.mem_map.2 ⟨c, hc, rfl⟩
    rw [← pairs] at this
    obtain ⟨c', h1, h2⟩ := List.mem_map.1 this
    simp only [Prod.mk.injEq] at h2
    exact ⟨c', h1, h2⟩
  refine
    { cu := hu ▸ h.cu
      cn := ?_
      cname := hnm ▸ h.cname
      cne := ?_
      su := by
        dsimp only
        rw [map_on]
        · exact h.su
        · intros; rfl
      sn := ?_
      sname := by
        dsimp only
        rw [map_on]
        · exact h.sname
        · intros; rfl
      tier := ?_
      cloud := ?_
      srefs := ?_
      crefs := hrefs
      tname := h.tname }
  · intro c hc
    obtain ⟨c0, h1, h2⟩ := back c hc
    have := h.cn c0 h1
    show c.uid < db.next
    omega
  · intro c hc
    have : c.name ∈ clouds'.map (·.name) := List.mem_map_of_mem hc
    rw [hnm] at this
    obtain ⟨c0, h1, h2⟩ := List.mem_map.1 this
    rw [← h2]
    exact h.cne c0 h1
  · intro s' hs'
    obtain ⟨s0, h1, rfl⟩ := mem_on hs'
    have := h.sn s0 h1
    split <;> exact this
  · intro t ht
    obtain ⟨s0, h1, e1, e2⟩ := h.tier t ht
    refine ⟨_, List.mem_map.2 ⟨s0, h1, rfl⟩, ?_⟩
    split <;> exact ⟨e1, e2⟩
  · intro s' hs'
    obtain ⟨s0, h1, rfl⟩ := mem_on hs'
    have lift : ∀ (n : Bytes) (k : Option Nat), ((n = [] ∧ k = none) ∨ ∃ c ∈ db.clouds, k = some c.uid ∧ c.name = n) →
        ((n = [] ∧ k = none) ∨ ∃ c ∈ clouds', k = some c.uid ∧ c.name = n) := by
      intro n k hk
      rcases hk with hk | ⟨c, h1, h2, h3⟩
      · exact .inl hk
      · obtain ⟨c', f1, f2, f3⟩ := fwd c h1
        exact .inr ⟨c', f1, by rw [f2]; exact h2, by rw [f3]; exact h3⟩
    split
    · exact lift _ _ hcl
    · exact lift _ _ (h.cloud s0 h1)
  · intro s' hs'
    obtain ⟨s0, h1, rfl⟩ := mem_on hs'
    have := h.srefs s0 h1
    split <;> exact this

theorem Core.attach {db : Db} (h : Core db) {s : Storage} (hs : s ∈ db.storages) (h0 : s.cloud = none)
    {c : Cloud} (hc : c ∈ db.clouds) :
    Core (onCloud (onStorage db s.uid (fun s => { s with cloudName := c.name, cloud := some c.uid })) c.uid
      fun c => { c with refs := c.refs + 1 }) := by
  refine h.recloud hs c.name (some c.uid) _ (map_onC db c.uid _ (·.uid) (fun _ => rfl)) (map_onC db c.uid _ (·.name) (fun _ => rfl))
    (.inr ⟨c, hc, rfl, rfl⟩) ?_
  intro c' hc'
  obtain ⟨c0, h1, rfl⟩ := mem_onC hc'
  split
  · rename_i e
    rw [countP_on h hs]
    · have := h.crefs c0 h1
      dsimp only
      rw [this]; omega
    · simp [h0]
    · simp [e]
  · rename_i e
    rw [countP_on_same]
    · exact h.crefs c0 h1
    · intro s' hs' e'
      rw [h.sid hs' hs e', h0]
      simp
      exact fun x => e x.symm

theorem Core.detach {db : Db} (h : Core db) {s : Storage} (hs : s ∈ db.storages) {c : Nat} (h0 : s.cloud = some c) :
    Core (onCloud (onStorage db s.uid (fun s => { s with cloudName := [], cloud := none })) c
      fun c => { c with refs := c.refs - 1 }) := by
  refine h.recloud hs [] none _ (map_onC db c _ (·.uid) (fun _ => rfl)) (map_onC db c _ (·.name) (fun _ => rfl))
    (.inl ⟨rfl, rfl⟩) ?_
  intro c' hc'
  obtain ⟨c0, h1, rfl⟩ := mem_onC hc'
  split
  · rename_i e
    have k := h.crefs c0 h1
    -- back again
    have hm : ({ s with cloudName := [], cloud := none } : Storage) ∈
        (onStorage db s.uid (fun s => { s with cloudName := [], cloud := none })).storages :=
      List.mem_map.2 ⟨s, hs, if_pos rfl⟩
    have key : ∀ (l : List Storage), (l.map (·.uid)).Pairwise (· ≠ ·) → s ∈ l →
        (l.map (fun x => if x.uid = s.uid then ({ x with cloudName := [], cloud := none } : Storage) else x)).countP
          (fun s => decide (s.cloud = some c0.uid)) + 1 = l.countP (fun s => decide (s.cloud = some c0.uid)) := by
      intro l
      induction l with
      | nil => intro _ h; cases h
      | cons a l ih =>
        intro hp hm
        rw [List.map_cons, List.pairwise_cons] at hp
        rw [List.map_cons, List.countP_cons, List.countP_cons]
        rcases List.mem_cons.1 hm with rfl | hm'
        · rw [if_pos rfl, map_id_of]
          · simp [h0, e]
          · intro b hb
            exact if_neg fun e => hp.1 b.uid (List.mem_map_of_mem hb) e.symm
        · rw [if_neg (hp.1 s.uid (List.mem_map_of_mem hm')), ← ih hp.2 hm']
          omega
    have := key db.storages h.su hs
    dsimp only
    rw [k]
    simp only [onStorage]
    omega
  · rename_i e
    rw [countP_on_same]
    · exact h.crefs c0 h1
    · intro s' hs' e'
      rw [h.sid hs' hs e', h0]
      simp
      exact fun x => e x.symm

/-- Removing a storage without a cloud that no tier names. -/
theorem Core.remove {db : Db} (h : Core db) {s : Storage} (hs : s ∈ db.storages) (h0 : s.cloud = none) (hr : s.refs ≤ 0) :
    Core { db with storages := db.storages.filter fun x => x.uid ≠ s.uid } := by
  have sub : ∀ x ∈ db.storages.filter (fun x => x.uid ≠ s.uid), x ∈ db.storages := fun x hx => (List.mem_filter.1 hx).1
  refine
    { cu := h.cu
      cn := h.cn
      cname := h.cname
      cne := h.cne
      su := h.su.sublist ((List.filter_sublist (l := db.storages)).map _)
      sn := fun s hs => h.sn s (sub s hs)
      sname := h.sname.sublist ((List.filter_sublist (l := db.storages)).map _)
      tier := ?_
      cloud := fun s hs => h.cloud s (sub s hs)
      srefs := fun s hs => h.srefs s (sub s hs)
      crefs := ?_
      tname := h.tname }
  · intro t ht
    obtain ⟨x, hx, e1, e2⟩ := h.tier t ht
    refine ⟨x, List.mem_filter.2 ⟨hx, ?_⟩, e1, e2⟩
    simp only [ne_eq, decide_not, Bool.not_eq_eq_eq_not, Bool.not_true, decide_eq_false_iff_not]
    intro e
    have := h.srefs s hs
    have : 0 < db.tiers.countP (fun t => t.storage = s.uid) :=
      List.countP_pos_iff.2 ⟨t, ht, by simp [← e1, e]⟩
    omega
  · intro c hc
    rw [h.crefs c hc, List.countP_filter]
    congr 1
    apply List.countP_congr
    intro x hx
    simp only [decide_eq_true_eq, ne_eq, decide_not, Bool.and_eq_true, Bool.not_eq_eq_eq_not, Bool.not_true,
      decide_eq_false_iff_not]
    constructor
    · intro e
      refine ⟨e, fun e2 => ?_⟩
      rw [h.sid hx hs e2, h0] at e
      cases e
    · exact fun e => e.1

/-- A new cloud. -/
theorem Core.addCloud {db : Db} (h : Core db) (name : Bytes) (hne : name ≠ []) (hn : ∀ c ∈ db.clouds, c.name ≠ name) :
    Core { db with clouds := db.clouds ++ [{ uid := db.next, name := name }], next := db.next + 1 } := by
  refine
    { cu := ?_
      cn := ?_
      cname := ?_
      cne := ?_
      su := h.su
      sn := fun s hs => Nat.lt_succ_of_lt (h.sn s hs)
      sname := h.sname
      tier := h.tier
      cloud := ?_
      srefs := h.srefs
      crefs := ?_
      tname := h.tname }
  · dsimp only
    rw [List.map_append, List.pairwise_append]
    refine ⟨h.cu, List.pairwise_singleton _ _, ?_⟩
    intro a ha b hb
    obtain ⟨s, hs, rfl⟩ := List.mem_map.1 ha
    have := h.cn s hs
    simp at hb
    omega
  · intro s hs
    rcases List.mem_append.1 hs with hs | hs
    · exact Nat.lt_succ_of_lt (h.cn s hs)
    · rw [List.mem_singleton.1 hs]; exact Nat.lt_succ_self _
  · dsimp only
    rw [List.map_append, List.pairwise_append]
    refine ⟨h.cname, List.pairwise_singleton _ _, ?_⟩
    intro a ha b hb
    obtain ⟨s, hs, rfl⟩ := List.mem_map.1 ha
    simp at hb
    rw [hb]
    exact hn s hs
  · intro s hs
    rcases List.mem_append.1 hs with hs | hs
    · exact h.cne s hs
    · rw [List.mem_singleton.1 hs]; exact hne
  · intro s hs
    rcases h.cloud s hs with e | ⟨c, hc, e⟩
    · exact .inl e
    · exact .inr ⟨c, List.mem_append_left _ hc, e⟩
  · intro c hc
    rcases List.mem_append.1 hc with hc | hc
    · exact h.crefs c hc
    · rw [List.mem_singleton.1 hc]
      have : db.storages.countP (fun s => decide (s.cloud = some db.next)) = 0 := by
        rw [List.countP_eq_zero]
        intro s hs
        rcases h.cloud s hs with ⟨_, e⟩ | ⟨c, hc, e, _⟩
        · simp [e]
        · have := h.cn c hc
          simp only [e, decide_eq_true_eq, Option.some.injEq]
          omega
      dsimp only
      rw [this]; rfl

/-- Removing a cloud that no storage names. -/
theorem Core.removeCloud {db : Db} (h : Core db) {c : Cloud} (hc : c ∈ db.clouds) (hr : c.refs ≤ 0) :
    Core { db with clouds := db.clouds.filter fun x => x.uid ≠ c.uid } := by
  have sub : ∀ x ∈ db.clouds.filter (fun x => x.uid ≠ c.uid), x ∈ db.clouds := fun x hx => (List.mem_filter.1 hx).1
  refine
    { cu := h.cu.sublist ((List.filter_sublist (l := db.clouds)).map _)
      cn := fun s hs => h.cn s (sub s hs)
      cname := h.cname.sublist ((List.filter_sublist (l := db.clouds)).map _)
      cne := fun s hs => h.cne s (sub s hs)
      su := h.su
      sn := h.sn
      sname := h.sname
      tier := h.tier
      cloud := ?_
      srefs := h.srefs
      crefs := fun s hs => h.crefs s (sub s hs)
      tname := h.tname }
  intro s hs
  rcases h.cloud s hs with e | ⟨x, hx, e1, e2⟩
  · exact .inl e
  · refine .inr ⟨x, List.mem_filter.2 ⟨hx, ?_⟩, e1, e2⟩
    simp only [ne_eq, decide_not, Bool.not_eq_eq_eq_not, Bool.not_true, decide_eq_false_iff_not]
    intro e
    have := h.crefs c hc
    have : 0 < db.storages.countP (fun s => s.cloud = some c.uid) :=
      List.countP_pos_iff.2 ⟨s, hs, by simp [e1, e]⟩
    omega

theorem pairwise_rename {α : Type} {β : Type} {l : List α} {f g : α → β} {a : α} {b : β} (h : (l.map f).Pairwise (· ≠ ·))
    (ha : ∀ x ∈ l, f x = f a → x = a) (hb : ∀ x ∈ l, f x ≠ b) (hg : ∀ x ∈ l, (f x = f a ∧ g x = b) ∨ (f x ≠ f a ∧ g x = f x)) :
    (l.map g).Pairwise (· ≠ ·) := by
  rw [List.pairwise_map] at h ⊢
  refine h.imp_of_mem ?_
  intro x y hx hy hxy
  rcases hg x hx with ⟨e1, e2⟩ | ⟨e1, e2⟩ <;> rcases hg y hy with ⟨k1, k2⟩ | ⟨k1, k2⟩
  · exact absurd (e1.trans k1.symm) hxy
  · rw [e2, k2]; exact (hb y hy).symm
  · rw [e2, k2]; exact hb x hx
  · rw [e2, k2]; exact hxy

/-- Renaming a cloud, also in the storages. -/
theorem Core.renameCloud {db : Db} (h : Core db) {c : Cloud} (hc : c ∈ db.clouds) {new : Bytes} (hne : new ≠ [])
    (hn : ∀ c ∈ db.clouds, c.name ≠ new) :
    Core
      { onCloud db c.uid (fun c => { c with name := new }) with
        storages := db.storages.map fun s => if s.cloudName = c.name then { s with cloudName := new } else s } := by
  have hu : ∀ s : Storage, (if s.cloudName = c.name then { s with cloudName := new } else s).uid = s.uid := by
    intro s; split <;> rfl
  have hk : ∀ s : Storage, (if s.cloudName = c.name then { s with cloudName := new } else s).cloud = s.cloud := by
    intro s; split <;> rfl
  refine
    { cu := ?_
      cn := ?_
      cname := ?_
      cne := ?_
      su := ?_
      sn := ?_
      sname := ?_
      tier := ?_
      cloud := ?_
      srefs := ?_
      crefs := ?_
      tname := h.tname }
  · dsimp only
    rw [map_onC]
    · exact h.cu
    · intros; rfl
  · intro c' hc'
    obtain ⟨c0, h1, rfl⟩ := mem_onC hc'
    have := h.cn c0 h1
    split <;> exact this
  · simp only [onCloud, List.map_map]
    refine pairwise_rename (a := c) (b := new) h.cname (fun x hx e => h.cnm hx hc e) hn ?_
    intro x hx
    simp only [Function.comp]
    by_cases e : x.uid = c.uid
    · rw [if_pos e]
      exact .inl ⟨by rw [h.cid hx hc e], rfl⟩
    · rw [if_neg e]
      exact .inr ⟨fun e2 => e (by rw [h.cnm hx hc e2]), rfl⟩
  · intro c' hc'
    obtain ⟨c0, h1, rfl⟩ := mem_onC hc'
    split
    · exact hne
    · exact h.cne c0 h1
  · rw [List.map_map]
    simp only [Function.comp_def, hu]
    exact h.su
  · intro s' hs'
    obtain ⟨s, hs, rfl⟩ := List.mem_map.1 hs'
    rw [hu]; exact h.sn s hs
  · rw [List.map_map]
    have : ∀ s : Storage, (if s.cloudName = c.name then { s with cloudName := new } else s).name = s.name := by
      intro s; split <;> rfl
    simp only [Function.comp_def, this]
    exact h.sname
  · intro t ht
    obtain ⟨s, hs, e1, e2⟩ := h.tier t ht
    refine ⟨_, List.mem_map.2 ⟨s, hs, rfl⟩, (hu s).trans e1, ?_⟩
    split <;> exact e2
  · intro s' hs'
    obtain ⟨s, hs, rfl⟩ := List.mem_map.1 hs'
    rcases h.cloud s hs with ⟨e1, e2⟩ | ⟨x, hx, e1, e2⟩
    · have : ¬ s.cloudName = c.name := fun e => h.cne c hc (e.symm.trans e1)
      rw [if_neg this]
      exact .inl ⟨e1, e2⟩
    · right
      refine ⟨_, List.mem_map.2 ⟨x, hx, rfl⟩, ?_⟩
      rw [hk]
      by_cases e : s.cloudName = c.name
      · have : x = c := h.cnm hx hc (e2.trans e)
        rw [if_pos e, if_pos (by rw [this])]
        exact ⟨e1, rfl⟩
      · have : ¬ x.uid = c.uid := fun k => e (by rw [← h.cid hx hc k, e2])
        rw [if_neg e, if_neg this]
        exact ⟨e1, e2⟩
  · intro s' hs'
    obtain ⟨s, hs, rfl⟩ := List.mem_map.1 hs'
    rw [hu]
    have := h.srefs s hs
    split <;> exact this
  · intro c' hc'
    obtain ⟨c0, h1, rfl⟩ := mem_onC hc'
    have e1 : (if c0.uid = c.uid then { c0 with name := new } else c0).uid = c0.uid := by split <;> rfl
    have e2 : (if c0.uid = c.uid then { c0 with name := new } else c0).refs = c0.refs := by split <;> rfl
    rw [e1, e2, h.crefs c0 h1]
    simp only [List.countP_map, Function.comp_def, hk]

theorem renameFirst_eq (name new : Bytes) : ∀ (l : List Tier), (l.map (·.config.name)).Pairwise (· ≠ ·) →
    renameFirst name new l = l.map (fun t => if t.config.name = name then { t with config := { t.config with name := new } } else t)
  | [], _ => rfl
  | t :: l, h => by
    rw [List.map_cons, List.pairwise_cons] at h
    rw [renameFirst, List.map_cons]
    split
    · rename_i e
      congr 1
      symm
      apply map_id_of
      intro x hx
      refine if_neg fun k => h.1 x.config.name (List.mem_map.2 ⟨x, hx, rfl⟩) (e.trans k.symm)
    · rw [renameFirst_eq name new l h.2]

/-- Renaming a storage, also in the pipeline. -/
theorem Core.renameStorage {db : Db} (h : Core db) {s : Storage} (hs : s ∈ db.storages) {new : Bytes}
    (hn : ∀ s ∈ db.storages, s.name ≠ new) :
    Core
      { onStorage db s.uid (fun s => { s with name := new }) with
        tiers := db.tiers.map fun t => if t.config.name = s.name then { t with config := { t.config with name := new } } else t } := by
  have ht : ∀ t : Tier, (if t.config.name = s.name then { t with config := { t.config with name := new } } else t).storage = t.storage := by
    intro t; split <;> rfl
  refine
    { cu := h.cu
      cn := h.cn
      cname := h.cname
      cne := h.cne
      su := ?_
      sn := ?_
      sname := ?_
      tier := ?_
      cloud := ?_
      srefs := ?_
      crefs := ?_
      tname := ?_ }
  · dsimp only
    rw [map_on]
    · exact h.su
    · intros; rfl
  · intro s' hs'
    obtain ⟨s0, h1, rfl⟩ := mem_on hs'
    have := h.sn s0 h1
    split <;> exact this
  · simp only [onStorage, List.map_map]
    refine pairwise_rename (a := s) (b := new) h.sname (fun x hx e => h.snm hx hs e) hn ?_
    intro x hx
    simp only [Function.comp]
    by_cases e : x.uid = s.uid
    · rw [if_pos e]
      exact .inl ⟨by rw [h.sid hx hs e], rfl⟩
    · rw [if_neg e]
      exact .inr ⟨fun e2 => e (by rw [h.snm hx hs e2]), rfl⟩
  · intro t' ht'
    obtain ⟨t, htm, rfl⟩ := List.mem_map.1 ht'
    obtain ⟨x, hx, e1, e2⟩ := h.tier t htm
    refine ⟨_, List.mem_map.2 ⟨x, hx, rfl⟩, ?_⟩
    rw [ht]
    by_cases e : t.config.name = s.name
    · have : x = s := h.snm hx hs (e2.trans e)
      rw [if_pos e, if_pos (by rw [this])]
      exact ⟨e1, rfl⟩
    · have : ¬ x.uid = s.uid := fun k => e (by rw [← h.sid hx hs k, e2])
      rw [if_neg e, if_neg this]
      exact ⟨e1, e2⟩
  · intro s' hs'
    obtain ⟨s0, h1, rfl⟩ := mem_on hs'
    have := h.cloud s0 h1
    split <;> exact this
  · intro s' hs'
    obtain ⟨s0, h1, rfl⟩ := mem_on hs'
    have := h.srefs s0 h1
    simp only [List.countP_map, Function.comp_def, ht]
    split <;> exact this
  · intro c hc
    rw [h.crefs c hc]
    dsimp only
    rw [countP_on_same]
    intros; rfl
  · simp only [List.map_map]
    by_cases hh : ∃ t ∈ db.tiers, t.config.name = s.name
    · obtain ⟨t0, ht0, e0⟩ := hh
      refine pairwise_rename (a := t0) (b := new) h.tname
        (fun x hx e => pairwise_inj (f := fun t : Tier => t.config.name) h.tname x hx t0 ht0 e) ?_ ?_
      · intro t htm e
        obtain ⟨x, hx, _, e2⟩ := h.tier t htm
        exact hn x hx (e2.trans e)
      · intro x hx
        simp only [Function.comp]
        by_cases e : x.config.name = s.name
        · rw [if_pos e]; exact .inl ⟨e.trans e0.symm, rfl⟩
        · rw [if_neg e]; exact .inr ⟨fun k => e (k.trans e0), rfl⟩
    · have : ∀ t ∈ db.tiers, ((fun t : Tier => t.config.name) ∘ fun t =>
          if t.config.name = s.name then { t with config := { t.config with name := new } } else t) t = t.config.name := by
        intro t htm
        simp only [Function.comp]
        rw [if_neg fun e => hh ⟨t, htm, e⟩]
      rw [List.map_congr_left this]
      exact h.tname

theorem countRefs_eq (n : Int) : ∀ (ts : List Tier) (db : Db),
    countRefs db ts n =
      { db with storages := db.storages.map fun s => { s with refs := s.refs + n * (ts.countP fun t => t.storage = s.uid) } }
  | [], db => by
    simp only [countRefs, List.foldl_nil, List.countP_nil]
    rw [map_id_of]
    intro s _
    simp
  | t :: ts, db => by
    have := countRefs_eq n ts (onStorage db t.storage fun s => { s with refs := s.refs + n })
    unfold countRefs at this ⊢
    rw [List.foldl_cons, this]
    simp only [onStorage, List.map_map]
    congr 1
    apply List.map_congr_left
    intro s _
    simp only [Function.comp, List.countP_cons]
    by_cases e : s.uid = t.storage
    · simp [e]
      grind
    · have : ¬ t.storage = s.uid := fun k => e k.symm
      simp [this, e]

theorem resolve_spec {db : Db} : ∀ {cs : List Sto.TierConfig} {ts : List Tier}, resolve db cs = some ts →
    ts.map (·.config) = cs ∧ ∀ t ∈ ts, ∃ s ∈ db.storages, s.uid = t.storage ∧ s.name = t.config.name
  | [], ts, h => by
    simp only [resolve, Option.some.injEq] at h
    subst h
    exact ⟨rfl, by simp⟩
  | c :: cs, ts, h => by
    rw [resolve] at h
    split at h
    · cases h
    · rename_i s hs
      cases hr : resolve db cs with
      | none => rw [hr] at h; cases h
      | some ts' =>
        rw [hr] at h
        simp only [Option.map_some, Option.some.injEq] at h
        subst h
        obtain ⟨k1, k2⟩ := resolve_spec hr
        refine ⟨by simp [k1], ?_⟩
        intro t ht
        rcases List.mem_cons.1 ht with rfl | ht
        · exact ⟨s, (findStorage_some hs).1, rfl, (findStorage_some hs).2⟩
        · exact k2 t ht

/-- Replacing the tiers and counting their references again. -/
theorem Core.retier {db : Db} (h : Core db) (ts : List Tier) (f : Storage → Int)
    (hts : ∀ t ∈ ts, ∃ s ∈ db.storages, s.uid = t.storage ∧ s.name = t.config.name)
    (hnm : (ts.map (·.config.name)).Pairwise (· ≠ ·))
    (hf : ∀ s ∈ db.storages, f s = ts.countP (fun t => t.storage = s.uid)) :
    Core { db with storages := db.storages.map (fun s => { s with refs := f s }), tiers := ts } := by
  refine
    { cu := h.cu
      cn := h.cn
      cname := h.cname
      cne := h.cne
      su := ?_
      sn := ?_
      sname := ?_
      tier := ?_
      cloud := ?_
      srefs := ?_
      crefs := ?_
      tname := hnm }
  · rw [List.map_map]; exact h.su
  · intro s' hs'
    obtain ⟨s, hs, rfl⟩ := List.mem_map.1 hs'
    exact h.sn s hs
  · rw [List.map_map]; exact h.sname
  · intro t ht
    obtain ⟨s, hs, e⟩ := hts t ht
    exact ⟨_, List.mem_map.2 ⟨s, hs, rfl⟩, e⟩
  · intro s' hs'
    obtain ⟨s, hs, rfl⟩ := List.mem_map.1 hs'
    exact h.cloud s hs
  · intro s' hs'
    obtain ⟨s, hs, rfl⟩ := List.mem_map.1 hs'
    exact hf s hs
  · intro c hc
    rw [h.crefs c hc, List.countP_map]
    rfl

end Verif.C40
