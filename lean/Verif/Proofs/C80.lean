import Verif.Spec.C80
import Verif.Proofs.ParseTop

/-! C80: files belong to storages in memory and in the configuration file. -/
namespace Verif.C80
open Settings Parse

/-- The cloud of a storage is there. -/
def CloudOk (clouds : List Bytes) (s : Storage) : Prop :=
  (s.source.cloud = [] ∧ s.cloud = none) ∨ (s.source.cloud ≠ [] ∧ s.cloud = some s.source.cloud ∧ s.source.cloud ∈ clouds)

structure Inv (st : St) : Prop where
  memU : (st.storages.map (·.source.uuid)).Nodup
  memMain : ∃ s ∈ st.storages, s.source.name = Decode.cstr "main"
  confU : ((sources st.uuid st.conf.sources).map (·.uuid)).Nodup
  parts : (st.storages.flatMap (·.parts)).Nodup
  mins : (st.disk.map (·.min)).Nodup
  mem : ∀ f ∈ st.disk, ∃ s ∈ st.storages, inside s.source f = true ∧ f.min ∈ s.parts ∧ opens s.source f = true
  conf : ∀ f ∈ st.disk, ∃ c ∈ sources st.uuid st.conf.sources, inside c f = true ∧ opens c f = true
  clouds : ∀ s ∈ st.storages, CloudOk st.clouds s
  confClouds : ∀ c ∈ sources st.uuid st.conf.sources, c.cloud = [] ∨ c.cloud ∈ st.conf.clouds

theorem nodup_inj {α β : Type} {f : α → β} {l : List α} (h : (l.map f).Nodup) {a b : α} (ha : a ∈ l) (hb : b ∈ l)
    (e : f a = f b) : a = b := by
  induction l with
  | nil => cases ha
  | cons x l ih =>
    simp only [List.map_cons, List.nodup_cons, List.mem_map, not_exists, not_and] at h
    rcases List.mem_cons.1 ha with ea | ha <;> rcases List.mem_cons.1 hb with eb | hb
    · rw [ea, eb]
    · exact absurd (ea ▸ e).symm (h.1 b hb)
    · exact absurd (eb ▸ e) (h.1 a ha)
    · exact ih h.2 ha hb

theorem parts_one {l : List Storage} (h : (l.flatMap (·.parts)).Nodup) {s t : Storage} (hs : s ∈ l) (ht : t ∈ l)
    {m : Nat} (h1 : m ∈ s.parts) (h2 : m ∈ t.parts) : s = t := by
  induction l with
  | nil => cases hs
  | cons x l ih =>
    rw [List.flatMap_cons, List.nodup_append] at h
    rcases List.mem_cons.1 hs with es | hs <;> rcases List.mem_cons.1 ht with et | ht
    · rw [es, et]
    · exact absurd rfl (h.2.2 m (es ▸ h1) m (List.mem_flatMap.2 ⟨t, ht, h2⟩))
    · exact absurd rfl (h.2.2 m (et ▸ h2) m (List.mem_flatMap.2 ⟨s, hs, h1⟩))
    · exact ih h.2.1 hs ht

theorem inside_iff {c : Source} {f : File} : inside c f = true ↔ f.path = c.path ∧ f.uuid = c.uuid := by
  simp [inside]

theorem find_split {l : List Storage} {name : Bytes} {s : Storage} (h : find l name = some s) :
    s.source.name = name ∧ ∃ pre post, l = pre ++ s :: post ∧ (∀ g, change name g l = pre ++ g s :: post) ∧
      unlink name l = pre ++ post ∧ ∀ t ∈ pre, t.source.name ≠ name := by
  induction l with
  | nil => simp [find] at h
  | cons x l ih =>
    by_cases e : x.source.name = name
    · have : x = s := by simpa [find, e] using h
      subst this
      exact ⟨e, [], l, rfl, fun g => by simp [change, e], by simp [unlink, e], by simp⟩
    · have h' : find l name = some s := by
        have : (x.source.name == name) = false := by simpa using e
        simpa [find, List.find?_cons, this] using h
      obtain ⟨hn, pre, post, e1, e2, e3, e4⟩ := ih h'
      refine ⟨hn, x :: pre, post, by rw [e1]; rfl, fun g => by simp [change, e, e2], by simp [unlink, e, e3], ?_⟩
      intro t ht
      rcases List.mem_cons.1 ht with rfl | ht
      · exact e
      · exact e4 t ht

theorem find_mem {l : List Storage} {name : Bytes} {s : Storage} (h : find l name = some s) : s ∈ l :=
  List.mem_of_find?_eq_some h

theorem find_none {l : List Storage} {name : Bytes} (h : find l name = none) : ∀ s ∈ l, s.source.name ≠ name := by
  intro s hs e
  have := List.find?_eq_none.1 h s hs
  simp [e] at this

/-! ### What is read -/

theorem read_file {st : St} (h : Inv st) {f : File} (hf : f ∈ st.disk) : Settings.read st f.min = .file := by
  obtain ⟨s, hs, hi, hm, ho⟩ := h.mem f hf
  unfold Settings.read
  cases e : st.storages.find? fun s => s.parts.contains f.min with
  | none => exact absurd (List.find?_eq_none.1 e s hs) (by simpa using hm)
  | some t =>
    have ht := List.mem_of_find?_eq_some e
    have htm : f.min ∈ t.parts := by simpa using List.find?_some e
    have := parts_one h.parts hs ht hm htm
    subst this
    dsimp only
    cases e2 : st.disk.find? fun g => inside s.source g && g.min == f.min with
    | none => exact absurd (List.find?_eq_none.1 e2 f hf) (by simp [hi])
    | some g =>
      have hg := List.mem_of_find?_eq_some e2
      have hgm : inside s.source g = true ∧ g.min = f.min := by simpa using List.find?_some e2
      have := nodup_inj h.mins hg hf hgm.2
      subst this
      simp [ho]

/-! ### Restart -/

def cloudOf (c : Source) : Option Bytes := if c.cloud = [] then none else some c.cloud

def back (disk : List File) (c : Source) : Storage := ⟨c.copy, cloudOf c, (disk.filter (inside c)).map (·.min)⟩

theorem recover_ok {clouds : List Bytes} {disk : List File} {c : Source} (hc : c.cloud = [] ∨ c.cloud ∈ clouds)
    (ho : ∀ f ∈ disk, inside c f = true → opens c f = true) : recover clouds disk c = .ok (back disk c) := by
  have e : set_cloud clouds c false = .ok (cloudOf c) := by
    unfold set_cloud cloudOf
    by_cases h : c.cloud = []
    · simp [h]
    · have := hc.resolve_left h
      simp [h, this]
  unfold recover
  rw [e]
  dsimp only
  have : (disk.filter (inside c)).all (opens c) = true := by
    simp only [List.all_eq_true, List.mem_filter]
    intro f hf
    exact ho f hf.1 hf.2
  rw [if_pos this]
  rfl

theorem recover_all_ok {clouds : List Bytes} {disk : List File} : ∀ {l : List Source},
    (∀ c ∈ l, c.cloud = [] ∨ c.cloud ∈ clouds) → (∀ c ∈ l, ∀ f ∈ disk, inside c f = true → opens c f = true) →
    recover_all clouds disk l = .ok (l.map (back disk))
  | [], _, _ => rfl
  | c :: l, h1, h2 => by
    have e := recover_ok (h1 c (by simp)) (h2 c (by simp))
    have e2 := recover_all_ok (clouds := clouds) (disk := disk) (l := l) (fun c h => h1 c (by simp [h])) (fun c h => h2 c (by simp [h]))
    simp [recover_all, e, e2, Res.bind]

def reopened (st : St) : St :=
  { st with clouds := st.conf.clouds, storages := (sources st.uuid st.conf.sources).map (back st.disk) }

theorem restart_ok {st : St} (h : Inv st) : restart st = .ok (reopened st) := by
  unfold restart
  rw [recover_all_ok h.confClouds]
  · rfl
  · intro c hc f hf hi
    obtain ⟨c', hc', hi', ho'⟩ := h.conf f hf
    have : c = c' := nodup_inj h.confU hc hc' ((inside_iff.1 hi).2.symm.trans (inside_iff.1 hi').2)
    rw [this]
    exact ho'

theorem back_parts {disk : List File} (hm : (disk.map (·.min)).Nodup) : ∀ {l : List Source}, (l.map (·.uuid)).Nodup →
    ((l.map (back disk)).flatMap (·.parts)).Nodup
  | [], _ => by simp
  | c :: l, h => by
    simp only [List.map_cons, List.nodup_cons] at h
    rw [List.map_cons, List.flatMap_cons, List.nodup_append]
    refine ⟨?_, back_parts hm h.2, ?_⟩
    · exact List.Nodup.sublist ((List.filter_sublist (l := disk)).map _) hm
    · intro a ha b hb e
      subst e
      simp only [back, List.mem_map, List.mem_filter, List.mem_flatMap] at ha hb
      obtain ⟨f, ⟨hf, hi⟩, rfl⟩ := ha
      obtain ⟨s, ⟨c', hc', rfl⟩, hb⟩ := hb
      simp only [List.mem_map, List.mem_filter] at hb
      obtain ⟨g, ⟨hg, hi'⟩, e⟩ := hb
      have := nodup_inj hm hg hf e
      subst this
      apply h.1
      rw [← (inside_iff.1 hi).2, (inside_iff.1 hi').2]
      exact List.mem_map.2 ⟨c', hc', rfl⟩

theorem main_sources (uuid : Uuid) (l : List Source) : ∃ c ∈ sources uuid l, c.name = Decode.cstr "main" := by
  unfold sources
  by_cases h : l.any (fun c => c.name == Decode.cstr "main") = true
  · rw [if_pos h]
    simpa using h
  · rw [if_neg h]
    exact ⟨main uuid, by simp, rfl⟩

theorem reopened_inv {st : St} (h : Inv st) : Inv (reopened st) where
  memU := by
    have := h.confU
    simpa [reopened, back, Source.copy, Function.comp_def] using this
  memMain := by
    obtain ⟨c, hc, e⟩ := main_sources st.uuid st.conf.sources
    exact ⟨back st.disk c, List.mem_map.2 ⟨c, hc, rfl⟩, e⟩
  confU := h.confU
  parts := back_parts h.mins h.confU
  mins := h.mins
  mem := by
    intro f hf
    obtain ⟨c, hc, hi, ho⟩ := h.conf f hf
    exact ⟨back st.disk c, List.mem_map.2 ⟨c, hc, rfl⟩, hi, List.mem_map.2 ⟨f, List.mem_filter.2 ⟨hf, hi⟩, rfl⟩, ho⟩
  conf := h.conf
  clouds := by
    intro s hs
    obtain ⟨c, hc, rfl⟩ := List.mem_map.1 hs
    by_cases e : c.cloud = []
    · exact Or.inl ⟨e, by simp [back, cloudOf, e]⟩
    · exact Or.inr ⟨e, by simp [back, cloudOf, e, Source.copy], (h.confClouds c hc).resolve_left e⟩
  confClouds := h.confClouds

theorem inv_good {st : St} (h : Inv st) : Good st :=
  ⟨fun _ hf => read_file h hf, reopened st, restart_ok h, rfl, fun _ hf => read_file (reopened_inv h) hf⟩

theorem start_inv (uuid : Uuid) : Inv (start uuid) where
  memU := by simp [start]
  memMain := ⟨⟨main uuid, none, []⟩, by simp [start], rfl⟩
  confU := by simp [start, sources]
  parts := by simp [start]
  mins := by simp [start]
  mem := by simp [start]
  conf := by simp [start]
  clouds := by
    intro s hs
    simp only [start, List.mem_singleton] at hs
    subst hs
    exact Or.inl ⟨rfl, rfl⟩
  confClouds := by
    intro c hc
    have : c = main uuid := by simpa [start, sources] using hc
    subst this
    exact Or.inl rfl

/-! ### Commands -/

theorem inv_save {st : St} (h : Inv st) : Inv { st with conf := ⟨st.clouds, st.storages.map (·.source)⟩ } := by
  have e : sources st.uuid (st.storages.map (·.source)) = st.storages.map (·.source) := by
    obtain ⟨s, hs, hn⟩ := h.memMain
    unfold sources
    rw [if_pos]
    simp only [List.any_eq_true, List.mem_map]
    exact ⟨_, ⟨s, hs, rfl⟩, by simp [hn]⟩
  constructor
  · exact h.memU
  · exact h.memMain
  · show ((sources st.uuid _).map _).Nodup
    rw [e, List.map_map]
    exact h.memU
  · exact h.parts
  · exact h.mins
  · exact h.mem
  · intro f hf
    obtain ⟨s, hs, h1, _, h2⟩ := h.mem f hf
    refine ⟨s.source, ?_, h1, h2⟩
    show _ ∈ sources st.uuid _
    rw [e]
    exact List.mem_map.2 ⟨s, hs, rfl⟩
  · exact h.clouds
  · intro c hc
    have hc : c ∈ sources st.uuid (st.storages.map (·.source)) := hc
    rw [e] at hc
    obtain ⟨s, hs, rfl⟩ := List.mem_map.1 hc
    rcases h.clouds s hs with h | h
    · exact Or.inl h.1
    · exact Or.inr h.2.2

theorem save_inv {r : Res Unit × St} (h : Inv r.2) (b : Bool) : Inv (save r b).2 := by
  obtain ⟨x, st⟩ := r
  unfold save
  cases x with
  | ok _ =>
    dsimp only
    by_cases e : b = true
    · rw [if_pos e]; exact h
    · rw [if_neg e]; exact inv_save h
  | _ => exact h

/-- New storages and clouds in memory. -/
theorem inv_mem {st : St} (h : Inv st) (cs : List Bytes) (l : List Storage) (h1 : (l.map (·.source.uuid)).Nodup)
    (h2 : ∃ s ∈ l, s.source.name = Decode.cstr "main") (h3 : (l.flatMap (·.parts)).Nodup)
    (h4 : ∀ s ∈ st.storages, ∀ f ∈ st.disk, inside s.source f = true → f.min ∈ s.parts → opens s.source f = true →
      ∃ s ∈ l, inside s.source f = true ∧ f.min ∈ s.parts ∧ opens s.source f = true)
    (h5 : ∀ s ∈ l, CloudOk cs s) : Inv { st with clouds := cs, storages := l } where
  memU := h1
  memMain := h2
  confU := h.confU
  parts := h3
  mins := h.mins
  mem := fun f hf => by
    obtain ⟨s, hs, a, b, c⟩ := h.mem f hf
    exact h4 s hs f hf a b c
  conf := h.conf
  clouds := h5
  confClouds := h.confClouds

/-- One storage is changed and keeps its uuid and partitions; if it has any, its path
and key too. -/
theorem inv_change {st : St} (h : Inv st) {name : Bytes} {s : Storage} (hs : find st.storages name = some s)
    (g : Storage → Storage) (hu : (g s).source.uuid = s.source.uuid) (hp : (g s).parts = s.parts)
    (hk : s.parts ≠ [] → (g s).source.path = s.source.path ∧ (g s).source.encryption_key = s.source.encryption_key)
    (hm : s.source.name = Decode.cstr "main" → (g s).source.name = Decode.cstr "main")
    (hc : CloudOk st.clouds (g s)) : Inv { st with storages := change name g st.storages } := by
  obtain ⟨_, pre, post, e1, e2, _, _⟩ := find_split hs
  refine inv_mem h st.clouds _ ?_ ?_ ?_ ?_ ?_
  · have := h.memU
    rw [e1] at this
    rw [e2]
    simpa [hu] using this
  · obtain ⟨t, ht, hn⟩ := h.memMain
    rw [e1] at ht
    rw [e2]
    simp only [List.mem_append, List.mem_cons] at ht ⊢
    rcases ht with ht | rfl | ht
    · exact ⟨t, Or.inl ht, hn⟩
    · exact ⟨g t, Or.inr (Or.inl rfl), hm hn⟩
    · exact ⟨t, Or.inr (Or.inr ht), hn⟩
  · have := h.parts
    rw [e1] at this
    rw [e2]
    simpa [hp] using this
  · intro t ht f _ hi hmem ho
    rw [e1] at ht
    rw [e2]
    simp only [List.mem_append, List.mem_cons] at ht ⊢
    rcases ht with ht | rfl | ht
    · exact ⟨t, Or.inl ht, hi, hmem, ho⟩
    · refine ⟨g t, Or.inr (Or.inl rfl), ?_, by rw [hp]; exact hmem, ?_⟩
      · have := hk (List.ne_nil_of_mem hmem)
        rw [inside_iff] at hi ⊢
        rw [this.1, hu]
        exact hi
      · have := hk (List.ne_nil_of_mem hmem)
        unfold opens at ho ⊢
        rw [this.2]
        exact ho
    · exact ⟨t, Or.inr (Or.inr ht), hi, hmem, ho⟩
  · intro t ht
    rw [e2] at ht
    simp only [List.mem_append, List.mem_cons] at ht
    rcases ht with ht | rfl | ht
    · exact h.clouds t (by rw [e1]; simp [ht])
    · exact hc
    · exact h.clouds t (by rw [e1]; simp [ht])

theorem set_cloud_cases (clouds : List Bytes) (c : Source) (b : Bool) :
    (c.cloud = [] ∧ set_cloud clouds c b = .ok none) ∨
    (c.cloud ≠ [] ∧ c.cloud ∈ clouds ∧ b = false ∧ set_cloud clouds c b = .ok (some c.cloud)) ∨
    (c.cloud ≠ [] ∧ ¬ (c.cloud ∈ clouds ∧ b = false) ∧ ∃ m, set_cloud clouds c b = .err m) := by
  unfold set_cloud
  by_cases h1 : c.cloud = []
  · exact Or.inl ⟨h1, by simp [h1]⟩
  · by_cases h2 : c.cloud ∈ clouds
    · cases b with
      | false => exact Or.inr (Or.inl ⟨h1, h2, rfl, by simp [h1, h2]⟩)
      | true => exact Or.inr (Or.inr ⟨h1, by simp, _, by simp [h1, h2]; rfl⟩)
    · exact Or.inr (Or.inr ⟨h1, by simp [h2], _, by simp [h1, h2]; rfl⟩)

theorem create_storage_inv {st : St} (h : Inv st) (c : Source) (b : Bool) (o : Outside) (hu : ¬ Used st c.uuid) :
    Inv (Settings.storage_create st c b o).2 := by
  have key : ∀ cl, CloudOk st.clouds ⟨c.copy, cl, []⟩ → Inv { st with storages := st.storages ++ [⟨c.copy, cl, []⟩] } := by
    intro cl hc
    refine inv_mem h st.clouds _ ?_ ?_ ?_ ?_ ?_
    · rw [List.map_append, List.nodup_append]
      refine ⟨h.memU, by simp, ?_⟩
      intro a ha x hx e
      subst e
      simp only [List.map_cons, List.map_nil, List.mem_singleton] at hx
      subst hx
      obtain ⟨s, hs, e⟩ := List.mem_map.1 ha
      exact hu ⟨s, hs, e⟩
    · obtain ⟨s, hs, e⟩ := h.memMain
      exact ⟨s, by simp [hs], e⟩
    · simpa using h.parts
    · intro s hs f _ a b c
      exact ⟨s, by simp [hs], a, b, c⟩
    · intro s hs
      rcases List.mem_append.1 hs with hs | hs
      · exact h.clouds s hs
      · rw [List.mem_singleton.1 hs]; exact hc
  unfold Settings.storage_create
  cases find st.storages c.name with
  | some _ => dsimp only; split <;> exact h
  | none =>
    dsimp only
    by_cases hm : o.mkdir = true
    · rw [if_pos hm]; exact h
    · rw [if_neg hm]
      rcases set_cloud_cases st.clouds c o.attach with ⟨e, e'⟩ | ⟨e, e1, _, e'⟩ | ⟨_, _, m, e'⟩
      · rw [e']; exact key none (Or.inl ⟨e, rfl⟩)
      · rw [e']; exact key _ (Or.inr ⟨e, rfl, e1⟩)
      · rw [e']; exact h

theorem drop_storage_inv {st : St} (h : Inv st) (n : Bytes) (b : Bool) (o : Outside) : Inv (Settings.storage_drop st n b o).2 := by
  unfold Settings.storage_drop
  by_cases hn : n = Decode.cstr "main"
  · rw [if_pos hn]; exact h
  rw [if_neg hn]
  cases e : find st.storages n with
  | none => dsimp only; split <;> exact h
  | some s =>
    dsimp only
    by_cases h1 : o.tier = true
    · rw [if_pos h1]; exact h
    rw [if_neg h1]
    by_cases h2 : s.parts ≠ []
    · rw [if_pos h2]; exact h
    rw [if_neg h2]
    have h2 : s.parts = [] := Classical.not_not.1 h2
    by_cases h3 : (s.cloud.isSome && o.detach) = true
    · rw [if_pos h3]; exact h
    rw [if_neg h3]
    obtain ⟨en, pre, post, e1, _, e3, _⟩ := find_split e
    refine inv_mem h st.clouds _ ?_ ?_ ?_ ?_ ?_
    · have := h.memU
      rw [e1] at this
      rw [e3]
      exact List.Nodup.sublist (by simp) this
    · obtain ⟨t, ht, hm⟩ := h.memMain
      rw [e1] at ht
      rw [e3]
      simp only [List.mem_append, List.mem_cons] at ht ⊢
      rcases ht with ht | rfl | ht
      · exact ⟨t, Or.inl ht, hm⟩
      · exact absurd (en.symm.trans hm) hn
      · exact ⟨t, Or.inr ht, hm⟩
    · have := h.parts
      rw [e1] at this
      rw [e3]
      simpa [h2] using this
    · intro t ht f _ hi hmem ho
      rw [e1] at ht
      rw [e3]
      simp only [List.mem_append, List.mem_cons] at ht ⊢
      rcases ht with ht | rfl | ht
      · exact ⟨t, Or.inl ht, hi, hmem, ho⟩
      · rw [h2] at hmem; cases hmem
      · exact ⟨t, Or.inr ht, hi, hmem, ho⟩
    · intro t ht
      rw [e3] at ht
      refine h.clouds t ?_
      rw [e1]
      simp only [List.mem_append, List.mem_cons] at ht ⊢
      rcases ht with ht | ht
      · exact Or.inl ht
      · exact Or.inr (Or.inr ht)

theorem rename_storage_inv {st : St} (h : Inv st) (n m : Bytes) (b : Bool) : Inv (Settings.storage_rename st n m b).2 := by
  unfold Settings.storage_rename
  by_cases hn : n = Decode.cstr "main"
  · rw [if_pos hn]; exact h
  rw [if_neg hn]
  cases e : find st.storages n with
  | none => dsimp only; split <;> exact h
  | some s =>
    dsimp only
    cases find st.storages m with
    | some _ => exact h
    | none =>
      have en := (find_split e).1
      refine inv_change h e _ rfl rfl (fun _ => ⟨rfl, rfl⟩) (fun hm => absurd (en.symm.trans hm) hn) ?_
      exact h.clouds s (find_mem e)

theorem alter_storage_inv {st : St} (h : Inv st) (c : Source) (mask : Nat) (b : Bool) (o : Outside) (h0 : mask.testBit 0 = false)
    (h1 : mask.testBit 1 = false) (hc : mask.testBit 3 = true → c.cloud = [] ∨ (c.cloud ∈ st.clouds ∧ o.attach = false)) :
    Inv (Settings.storage_alter st c mask b o).2 := by
  unfold Settings.storage_alter
  cases e : find st.storages c.name with
  | none => dsimp only; split <;> exact h
  | some s =>
    dsimp only
    by_cases g1 : (mask.testBit 6 && decide (s.parts ≠ [])) = true
    · rw [if_pos g1]; exact h
    rw [if_neg g1]
    by_cases g2 : (mask.testBit 2 && decide (s.parts ≠ [])) = true
    · rw [if_pos g2]; exact h
    rw [if_neg g2]
    by_cases g3 : (mask.testBit 2 && o.mkdir) = true
    · rw [if_pos g3]; exact h
    rw [if_neg g3]
    by_cases g4 : ((mask.testBit 11 || mask.testBit 12) && decide (s.parts ≠ [])) = true
    · rw [if_pos g4]; exact h
    rw [if_neg g4]
    by_cases g5 : (mask.testBit 3 && o.onCloud) = true
    · rw [if_pos g5]; exact h
    rw [if_neg g5]
    by_cases g6 : (mask.testBit 3 && s.cloud.isSome && o.detach) = true
    · rw [if_pos g6]; exact h
    rw [if_neg g6]
    have hk : s.parts ≠ [] → (source_alter s.source c mask).path = s.source.path ∧
        (source_alter s.source c mask).encryption_key = s.source.encryption_key := by
      intro hp
      have a2 : mask.testBit 2 = false := by simpa [hp] using g2
      have a12 : mask.testBit 12 = false := by
        have : mask.testBit 11 = false ∧ mask.testBit 12 = false := by simpa [hp] using g4
        exact this.2
      simp [source_alter, a2, a12]
    have hu : (source_alter s.source c mask).uuid = s.source.uuid := by simp [source_alter, h0]
    have hm : s.source.name = Decode.cstr "main" → (source_alter s.source c mask).name = Decode.cstr "main" := by
      intro hm; simpa [source_alter, h1] using hm
    by_cases g : mask.testBit 3 = true
    · rw [if_neg (by simpa using g)]
      have ec : (source_alter s.source c mask).cloud = c.cloud := by simp [source_alter, g]
      rcases set_cloud_cases st.clouds (source_alter s.source c mask) o.attach with ⟨x, x'⟩ | ⟨x, x1, _, x'⟩ | ⟨x, x1, m, x'⟩
      · rw [x']
        exact inv_change h e (fun t => { t with source := source_alter s.source c mask, cloud := none }) hu rfl hk hm (Or.inl ⟨x, rfl⟩)
      · rw [x']
        exact inv_change h e (fun t => { t with source := source_alter s.source c mask, cloud := some (source_alter s.source c mask).cloud })
          hu rfl hk hm (Or.inr ⟨x, rfl, x1⟩)
      · rw [ec] at x x1
        exact absurd ((hc g).resolve_left x) x1
    · rw [if_pos (by simpa using g)]
      refine inv_change h e (fun t => { t with source := source_alter s.source c mask }) hu rfl hk hm ?_
      have ec : (source_alter s.source c mask).cloud = s.source.cloud := by simp [source_alter, g]
      have := h.clouds s (find_mem e)
      unfold CloudOk at this ⊢
      dsimp only
      rw [ec]
      exact this

theorem create_cloud_inv {st : St} (h : Inv st) (c : CloudConfig) (b : Bool) : Inv (Settings.cloud_create st c b).2 := by
  unfold Settings.cloud_create
  by_cases h1 : st.clouds.contains c.name = true
  · rw [if_pos h1]; split <;> exact h
  rw [if_neg h1]
  split
  · exact h
  · refine inv_mem h _ st.storages h.memU h.memMain h.parts (fun s hs f _ a b c => ⟨s, hs, a, b, c⟩) ?_
    intro s hs
    rcases h.clouds s hs with x | x
    · exact Or.inl x
    · exact Or.inr ⟨x.1, x.2.1, by simp [x.2.2]⟩

theorem drop_cloud_inv {st : St} (h : Inv st) (n : Bytes) (b : Bool) : Inv (Settings.cloud_drop st n b).2 := by
  unfold Settings.cloud_drop
  by_cases h1 : ¬ st.clouds.contains n = true
  · rw [if_pos h1]; split <;> exact h
  rw [if_neg h1]
  by_cases h2 : (st.storages.any fun s => s.cloud == some n) = true
  · rw [if_pos h2]; exact h
  rw [if_neg h2]
  refine inv_mem h _ st.storages h.memU h.memMain h.parts (fun s hs f _ a b c => ⟨s, hs, a, b, c⟩) ?_
  intro s hs
  rcases h.clouds s hs with x | x
  · exact Or.inl x
  · refine Or.inr ⟨x.1, x.2.1, ?_⟩
    have : s.source.cloud ≠ n := by
      intro e
      apply h2
      simp only [List.any_eq_true]
      exact ⟨s, hs, by simp [x.2.1, e]⟩
    exact (List.mem_erase_of_ne this).2 x.2.2

theorem rename_cloud_inv {st : St} (h : Inv st) (n m : Bytes) (b : Bool) (hn : n ≠ []) (hm : m ≠ []) :
    Inv (Settings.cloud_rename st n m b).2 := by
  have key : ∀ (cs : List Bytes) (g : Storage → Storage), (∀ s ∈ st.storages, (g s).source = s.source ∨
      (g s).source = { s.source with cloud := m }) → (∀ s ∈ st.storages, (g s).parts = s.parts) →
      (∀ s ∈ st.storages, CloudOk cs (g s)) → Inv { st with clouds := cs, storages := st.storages.map g } := by
    intro cs g hg hp hc
    have hs' : ∀ s ∈ st.storages, (g s).source.uuid = s.source.uuid ∧ (g s).source.name = s.source.name ∧
        (g s).source.path = s.source.path ∧ (g s).source.encryption_key = s.source.encryption_key := by
      intro s hs
      rcases hg s hs with e | e <;> simp [e]
    refine inv_mem h cs _ ?_ ?_ ?_ ?_ ?_
    · have e : (st.storages.map g).map (·.source.uuid) = st.storages.map (·.source.uuid) := by
        rw [List.map_map]
        exact List.map_congr_left fun s hs => (hs' s hs).1
      rw [e]
      exact h.memU
    · obtain ⟨s, hs, e⟩ := h.memMain
      exact ⟨g s, List.mem_map.2 ⟨s, hs, rfl⟩, (hs' s hs).2.1.trans e⟩
    · have e : (st.storages.map g).flatMap (·.parts) = st.storages.flatMap (·.parts) := by
        rw [List.flatMap_def, List.flatMap_def, List.map_map]
        exact congrArg List.flatten (List.map_congr_left fun s hs => hp s hs)
      rw [e]
      exact h.parts
    · intro s hs f _ hi hmem ho
      refine ⟨g s, List.mem_map.2 ⟨s, hs, rfl⟩, ?_, by rw [hp s hs]; exact hmem, ?_⟩
      · rw [inside_iff] at hi ⊢
        rw [(hs' s hs).1, (hs' s hs).2.2.1]
        exact hi
      · unfold opens at ho ⊢
        rw [(hs' s hs).2.2.2]
        exact ho
    · intro s hs
      obtain ⟨t, ht, rfl⟩ := List.mem_map.1 hs
      exact hc t ht
  unfold Settings.cloud_rename
  by_cases h1 : ¬ st.clouds.contains n = true
  · rw [if_pos h1]
    cases b with
    | false => exact h
    | true =>
      have hno : ∀ s ∈ st.storages, s.source.cloud ≠ n := by
        intro s hs e
        rcases h.clouds s hs with x | x
        · exact hn (e.symm.trans x.1)
        · exact h1 (by simpa [e] using x.2.2)
      refine key st.clouds _ ?_ ?_ ?_
      · intro s hs; rw [if_neg (hno s hs)]; exact Or.inl rfl
      · intro s hs; rw [if_neg (hno s hs)]
      · intro s hs; rw [if_neg (hno s hs)]; exact h.clouds s hs
  rw [if_neg h1]
  by_cases h2 : st.clouds.contains m = true
  · rw [if_pos h2]; exact h
  rw [if_neg h2]
  have hin : n ∈ st.clouds := by simpa using h1
  dsimp only
  rw [List.map_map]
  have hcases : ∀ s ∈ st.storages, (s.source.cloud = n ∧ s.cloud = some n) ∨ (s.source.cloud ≠ n ∧ s.cloud ≠ some n) := by
    intro s hs
    by_cases e : s.source.cloud = n
    · refine Or.inl ⟨e, ?_⟩
      rcases h.clouds s hs with x | x
      · exact absurd (e.symm.trans x.1) hn
      · rw [x.2.1, e]
    · refine Or.inr ⟨e, ?_⟩
      rcases h.clouds s hs with x | x
      · rw [x.2]; simp
      · rw [x.2.1]; simpa using e
  refine key _ _ ?_ ?_ ?_
  · intro s hs
    rcases hcases s hs with ⟨a, b⟩ | ⟨a, b⟩
    · right; simp [a, b]
    · left; simp [a, b]
  · intro s hs
    rcases hcases s hs with ⟨a, b⟩ | ⟨a, b⟩ <;> simp [a, b]
  · intro s hs
    rcases hcases s hs with ⟨a, b⟩ | ⟨a, b⟩
    · refine Or.inr ⟨?_, ?_, ?_⟩
      · simpa [a, b] using hm
      · simp [a, b]
      · simp only [Function.comp, a, b, if_true]
        exact List.mem_map.2 ⟨n, hin, by simp⟩
    · have : CloudOk (st.clouds.map fun c => if c = n then m else c) s := by
        rcases h.clouds s hs with x | x
        · exact Or.inl x
        · exact Or.inr ⟨x.1, x.2.1, List.mem_map.2 ⟨_, x.2.2, by simp [a]⟩⟩
      simpa [a, b] using this

/-! ### Partitions -/

theorem filter_flat (l : List Storage) (m : Nat) :
    (l.map fun s => { s with parts := s.parts.filter (· ≠ m) }).flatMap (·.parts) = (l.flatMap (·.parts)).filter (· ≠ m) := by
  induction l with
  | nil => rfl
  | cons s l ih => simp only [List.map_cons, List.flatMap_cons, List.filter_append, ih]

theorem create_inv {st : St} (h : Inv st) (n : Bytes) (m : Nat) : Inv (Settings.create st n m) := by
  unfold Settings.create
  by_cases h1 : (st.storages.any fun s => s.parts.contains m) = true
  · rw [if_pos h1]; exact h
  rw [if_neg h1]
  have hno : ∀ s ∈ st.storages, m ∉ s.parts := by
    intro s hs hm
    apply h1
    simp only [List.any_eq_true]
    exact ⟨s, hs, by simpa using hm⟩
  cases e : find st.storages n with
  | none =>
    have : ∀ (l : List Storage), (∀ s ∈ l, s.source.name ≠ n) → ∀ g, change n g l = l := by
      intro l
      induction l with
      | nil => intros; rfl
      | cons s l ih =>
        intro hl g
        simp [change, hl s (by simp), ih (fun s hs => hl s (by simp [hs])) g]
    rw [this _ (find_none e)]
    exact h
  | some s =>
    obtain ⟨_, pre, post, e1, e2, _, _⟩ := find_split e
    refine inv_mem h st.clouds _ ?_ ?_ ?_ ?_ ?_
    · have := h.memU
      rw [e1] at this
      rw [e2]
      simpa using this
    · obtain ⟨t, ht, hn⟩ := h.memMain
      rw [e1] at ht
      rw [e2]
      simp only [List.mem_append, List.mem_cons] at ht ⊢
      rcases ht with ht | rfl | ht
      · exact ⟨t, Or.inl ht, hn⟩
      · exact ⟨_, Or.inr (Or.inl rfl), hn⟩
      · exact ⟨t, Or.inr (Or.inr ht), hn⟩
    · have hp := h.parts
      have hno' : m ∉ st.storages.flatMap (·.parts) := by
        simp only [List.mem_flatMap, not_exists, not_and]
        exact hno
      rw [e1] at hp hno'
      rw [e2]
      have p : ((pre ++ { s with parts := s.parts ++ [m] } :: post).flatMap (·.parts)).Perm
          (m :: (pre ++ s :: post).flatMap (·.parts)) := by
        rw [List.perm_iff_count]
        intro a
        simp only [List.flatMap_append, List.flatMap_cons, List.count_append, List.count_cons, List.count_nil]
        omega
      rw [p.nodup_iff, List.nodup_cons]
      exact ⟨hno', hp⟩
    · intro t ht f _ hi hmem ho
      rw [e1] at ht
      rw [e2]
      simp only [List.mem_append, List.mem_cons] at ht ⊢
      rcases ht with ht | rfl | ht
      · exact ⟨t, Or.inl ht, hi, hmem, ho⟩
      · exact ⟨_, Or.inr (Or.inl rfl), hi, by simp [hmem], ho⟩
      · exact ⟨t, Or.inr (Or.inr ht), hi, hmem, ho⟩
    · intro t ht
      rw [e2] at ht
      simp only [List.mem_append, List.mem_cons] at ht
      rcases ht with ht | rfl | ht
      · exact h.clouds t (by rw [e1]; simp [ht])
      · exact h.clouds s (find_mem e)
      · exact h.clouds t (by rw [e1]; simp [ht])

theorem drop_inv {st : St} (h : Inv st) (m : Nat) : Inv (Settings.drop st m) := by
  unfold Settings.drop
  cases e : st.storages.find? fun s => s.parts.contains m with
  | none => exact h
  | some s =>
    have hs := List.mem_of_find?_eq_some e
    have hm : m ∈ s.parts := by simpa using List.find?_some e
    -- the files that stay are of other partitions
    have hf : ∀ f ∈ st.disk.filter (fun f => !(inside s.source f && f.min == m)), f ∈ st.disk ∧ f.min ≠ m := by
      intro f hf
      obtain ⟨h1, h2⟩ := List.mem_filter.1 hf
      refine ⟨h1, fun em => ?_⟩
      obtain ⟨t, ht, hi, hmem, _⟩ := h.mem f h1
      have := parts_one h.parts ht hs (em ▸ hmem) hm
      subst this
      simp [hi, em] at h2
    dsimp only
    constructor
    · have := h.memU
      simpa [Function.comp_def] using this
    · obtain ⟨t, ht, en⟩ := h.memMain
      exact ⟨_, List.mem_map.2 ⟨t, ht, rfl⟩, en⟩
    · exact h.confU
    · show (List.flatMap _ (List.map _ _)).Nodup
      rw [filter_flat]
      exact List.Nodup.sublist List.filter_sublist h.parts
    · exact List.Nodup.sublist (List.Sublist.map _ List.filter_sublist) h.mins
    · intro f hf'
      obtain ⟨h1, h2⟩ := hf f hf'
      obtain ⟨t, ht, hi, hmem, ho⟩ := h.mem f h1
      exact ⟨_, List.mem_map.2 ⟨t, ht, rfl⟩, hi, List.mem_filter.2 ⟨hmem, by simpa using h2⟩, ho⟩
    · intro f hf'
      exact h.conf f (hf f hf').1
    · intro t ht
      obtain ⟨u, hu, rfl⟩ := List.mem_map.1 ht
      exact h.clouds u hu
    · exact h.confClouds

theorem drop_find {l : List Storage} {n : Bytes} {s : Storage} (h : find l n = some s) (m : Nat) :
    find (l.map fun s => { s with parts := s.parts.filter (· ≠ m) }) n = some { s with parts := s.parts.filter (· ≠ m) } := by
  induction l with
  | nil => simp [find] at h
  | cons x l ih =>
    by_cases e : x.source.name = n
    · have : x = s := by simpa [find, e] using h
      subst this
      simp [find, e]
    · have eb : (x.source.name == n) = false := by simpa using e
      have h' : find l n = some s := by simpa [find, List.find?_cons, eb] using h
      have := ih h'
      simpa [find, List.find?_cons, eb] using this

theorem saved_sources {st : St} (hs : Saved st) {s : Storage} (h : s ∈ st.storages) :
    s.source ∈ sources st.uuid st.conf.sources := by
  rcases hs s h with e | ⟨e, e'⟩
  · unfold sources
    split
    · exact e
    · exact List.mem_append_left _ e
  · rw [e, e']
    simp [sources]

/-- A file is written for a partition that had none anywhere. -/
theorem write_inv {st : St} (h : Inv st) (hs : Saved st) {n : Bytes} {s : Storage} (e : find st.storages n = some s) {m : Nat}
    (hm : ∀ t ∈ st.storages, m ∉ t.parts) {key : Option Bytes} (hk : write_key s.source = .ok key) :
    Inv { st with
      storages := change n (fun s => { s with parts := s.parts ++ [m] }) st.storages
      disk := st.disk ++ [⟨s.source.path, s.source.uuid, m, key⟩] } := by
  have hc := create_inv h n m
  have hno : ¬ (st.storages.any fun s => s.parts.contains m) = true := by
    simp only [List.any_eq_true, not_exists, not_and]
    intro t ht hx
    exact hm t ht (by simpa using hx)
  unfold Settings.create at hc
  rw [if_neg hno] at hc
  have ho : opens s.source ⟨s.source.path, s.source.uuid, m, key⟩ = true := by
    unfold write_key at hk
    split at hk
    · injection hk with hk; subst hk; rfl
    · split at hk
      · cases hk
      · injection hk with hk; subst hk; simp [opens]
  have hi : inside s.source ⟨s.source.path, s.source.uuid, m, key⟩ = true := by simp [inside]
  obtain ⟨_, pre, post, e1, e2, _, _⟩ := find_split e
  constructor
  · exact hc.memU
  · exact hc.memMain
  · exact hc.confU
  · exact hc.parts
  · show (List.map _ (_ ++ _)).Nodup
    rw [List.map_append, List.nodup_append]
    refine ⟨h.mins, by simp, ?_⟩
    intro a ha b hb x
    subst x
    simp only [List.map_cons, List.map_nil, List.mem_singleton] at hb
    subst hb
    obtain ⟨f, hf, x⟩ := List.mem_map.1 ha
    obtain ⟨t, ht, _, hmem, _⟩ := h.mem f hf
    exact hm t ht (x ▸ hmem)
  · intro f hf
    rcases List.mem_append.1 hf with hf | hf
    · exact hc.mem f hf
    · rw [List.mem_singleton.1 hf]
      refine ⟨{ s with parts := s.parts ++ [m] }, ?_, hi, by simp, ho⟩
      show _ ∈ change n _ st.storages
      rw [e2]
      simp
  · intro f hf
    rcases List.mem_append.1 hf with hf | hf
    · exact h.conf f hf
    · rw [List.mem_singleton.1 hf]
      exact ⟨s.source, saved_sources hs (find_mem e), hi, ho⟩
  · exact hc.clouds
  · exact hc.confClouds

theorem find_self {l : List Storage} {s : Storage} (h : s ∈ l) : ∃ t, find l s.source.name = some t ∧ t ∈ l := by
  cases e : find l s.source.name with
  | none => exact absurd rfl (find_none e s h)
  | some t => exact ⟨t, rfl, find_mem e⟩

theorem refresh_inv {st : St} (h : Inv st) (hs : Saved st) (m : Nat) (t : Option Bytes) : Inv (Settings.refresh st m t).2 := by
  unfold Settings.refresh
  cases e : st.storages.find? fun s => s.parts.contains m with
  | none => exact h
  | some origin =>
    dsimp only
    have key : ∀ goal : Option Storage, (∀ s, goal = some s → find st.storages s.source.name = some s) → Inv (show Res Unit × St from match goal with
        | none => (Res.err "refresh: storage not found", st)
        | some s =>
          if t.isSome ∧ s.source.name = origin.source.name then (.ok (), st)
          else
            match write_key s.source with
            | .err m => (.err m, st)
            | .abort m => (.abort m, st)
            | .ub m => (.ub m, st)
            | .ok key =>
              ((.ok () : Res Unit), ({ st with
                storages := change s.source.name (fun s => { s with parts := s.parts ++ [m] })
                  (st.storages.map fun s => { s with parts := s.parts.filter (· ≠ m) })
                disk := st.disk.filter (fun f => !(inside origin.source f && f.min == m)) ++
                  [⟨s.source.path, s.source.uuid, m, key⟩] } : St))).2 := by
      intro goal hg
      cases goal with
      | none => exact h
      | some s =>
        dsimp only
        split
        · exact h
        · cases hk : write_key s.source with
          | ok key =>
            have hd := drop_inv h m
            unfold Settings.drop at hd
            rw [e] at hd
            have hd' : Saved { st with
                storages := st.storages.map fun s => { s with parts := s.parts.filter (· ≠ m) }
                disk := st.disk.filter fun f => !(inside origin.source f && f.min == m) } := by
              intro u hu
              obtain ⟨v, hv, rfl⟩ := List.mem_map.1 hu
              exact hs v hv
            refine write_inv (s := { s with parts := s.parts.filter (· ≠ m) }) hd hd' (drop_find (hg s rfl) m) ?_ hk
            intro u hu
            obtain ⟨v, _, rfl⟩ := List.mem_map.1 hu
            simp
          | _ => exact h
    refine key _ ?_
    intro s hsm
    cases t with
    | none =>
      have := hsm
      dsimp only at this
      rw [(find_split this).1]
      exact this
    | some n =>
      have := hsm
      dsimp only at this
      rw [(find_split this).1]
      exact this

/-! ### What the parser gives -/

theorem text_words {items : List C58.Item} {text : List Nat} (h : C58.Text items text) : ∀ s, .word s ∈ items → s ≠ [] := by
  induction h with
  | nil _ => intro s hs; cases hs
  | word _ hw _ _ ih =>
    intro s hs
    rcases List.mem_cons.1 hs with e | hs
    · injection e with e; subst e; intro x; subst x; exact hw
    · exact ih s hs
  | int _ _ _ _ _ ih =>
    intro s hs
    rcases List.mem_cons.1 hs with e | hs
    · cases e
    · exact ih s hs
  | unit _ _ _ _ _ _ _ _ ih =>
    intro s hs
    rcases List.mem_cons.1 hs with e | hs
    · cases e
    · exact ih s hs
  | string _ _ _ _ ih =>
    intro s hs
    rcases List.mem_cons.1 hs with e | hs
    · cases e
    · exact ih s hs
  | symbol _ _ _ ih =>
    intro s hs
    rcases List.mem_cons.1 hs with e | hs
    · cases e
    · exact ih s hs

theorem str_ne {s : List Nat} (h : s ≠ []) : str s ≠ [] := by
  intro e
  exact h (by simpa [str] using e)

theorem parse_rename {env : Env} {text : List Nat} {b : Bool} {n m : List Nat} (h : parse env text = .ok (.cloudRename b n m)) :
    str n ≠ [] ∧ str m ≠ [] := by
  obtain ⟨items, ht, hs⟩ := C58.parse_code.1 h
  have hw := text_words ht
  cases hs with
  | cloudRename _ _ _ h1 _ h2 =>
    exact ⟨str_ne (hw _ (by rw [h1.1]; simp)), str_ne (hw _ (by rw [h2.1]; simp))⟩
  | cloudRenameTo _ _ _ h1 _ _ h2 =>
    exact ⟨str_ne (hw _ (by rw [h1.1]; simp)), str_ne (hw _ (by rw [h2.1]; simp))⟩

theorem opt_bit {d : C58.Dialect} {c : Source} {s : List Nat} {v : C58.Item} {c' : Source} {b : Nat}
    (h : C58.StorageOpt d c s v c' b) : b.testBit 1 = false := by
  cases h <;> decide

theorem opts_bit {d : C58.Dialect} {c : Source} {m : Nat} {l : List C58.Item} {c' : Source} {m' : Nat}
    (h : C58.Opts (C58.StorageOpt d) c m l c' m') (hm : m.testBit 1 = false) : m'.testBit 1 = false := by
  induction h with
  | last h => rw [Nat.testBit_or, hm, opt_bit h]; rfl
  | more h _ ih => exact ih (by rw [Nat.testBit_or, hm, opt_bit h]; rfl)

theorem opt_name {d : C58.Dialect} {c : Source} {s : List Nat} {v : C58.Item} {c' : Source} {b : Nat}
    (h : C58.StorageOpt d c s v c' b) : c'.name = c.name := by
  cases h <;> rfl

theorem opts_name {d : C58.Dialect} {c : Source} {m : Nat} {l : List C58.Item} {c' : Source} {m' : Nat}
    (h : C58.Opts (C58.StorageOpt d) c m l c' m') : c'.name = c.name := by
  induction h with
  | last h => exact opt_name h
  | more h _ ih => exact ih.trans (opt_name h)

theorem parse_alter {env : Env} {text : List Nat} {b : Bool} {n : List Nat} {c : Source} {mask : Nat}
    (h : parse env text = .ok (.storageAlter b n c mask)) :
    mask.testBit 0 = false ∧ mask.testBit 1 = false ∧ c.name = str n := by
  obtain ⟨items, _, hs⟩ := C58.parse_code.1 h
  cases hs with
  | storageAlter _ _ _ _ _ ho h0 =>
    refine ⟨?_, ?_, ?_⟩
    · rw [Nat.and_one_is_mod] at h0
      simp [h0]
    · cases ho with
      | none => decide
      | empty => decide
      | some h => exact opts_bit h (by decide)
    · cases ho with
      | none => rfl
      | empty => rfl
      | some h => exact opts_name h

theorem execute_inv {st : St} (h : Inv st) (env : Env) (text : List Nat) (o : Outside) (hc : Careful st (.execute env text o)) :
    Inv (Settings.execute env st text o).2 := by
  unfold Settings.execute
  cases e : parse env text with
  | ok cmd =>
    have hc := hc cmd e
    cases cmd with
    | cloudCreate b c => exact save_inv (create_cloud_inv h _ _) _
    | cloudDrop b n => exact save_inv (drop_cloud_inv h _ _) _
    | cloudRename b n m => exact save_inv (rename_cloud_inv h _ _ _ (parse_rename e).1 (parse_rename e).2) _
    | cloudAlter b n c m =>
      refine save_inv ?_ _
      split <;> exact h
    | storageCreate b c => exact save_inv (create_storage_inv h _ _ _ hc) _
    | storageDrop b n => exact save_inv (drop_storage_inv h _ _ _) _
    | storageRename b n m => exact save_inv (rename_storage_inv h _ _ _) _
    | storageAlter b n c mask =>
      obtain ⟨h0, h1, _⟩ := parse_alter e
      exact save_inv (alter_storage_inv h c mask _ _ h0 h1 hc) _
    | _ => exact h
  | _ => exact h

theorem step_inv {st : St} (h : Inv st) (op : Op) (hc : Careful st op) : Inv (step st op) := by
  cases op with
  | execute env text o => exact execute_inv h env text o hc
  | create n m => exact create_inv h n m
  | refresh m t => exact refresh_inv h hc m t
  | drop m => exact drop_inv h m
  | restart =>
    unfold step
    dsimp only
    rw [restart_ok h]
    exact reopened_inv h

theorem run_inv : ∀ {st : St} (_ : Inv st) (ops : List Op) (_ : Carefully st ops), Inv (run st ops)
  | _, h, [], _ => h
  | _, h, op :: ops, hc => run_inv (step_inv h op hc.1) ops hc.2

end Verif.C80
