import Verif.Proofs.C83Read
import Verif.Proofs.C80

/-! C83: what holds of an environment that opens as it is. -/
namespace Verif.C83
open Data C34 C35 Decode Reopen Config

abbrev nClouds : Bytes := cstr "clouds"
abbrev nStorages : Bytes := cstr "storages"
abbrev nPipeline : Bytes := cstr "pipeline"

/-- Variables of which the three lists have the given values. -/
structure Vars (cfg : List Var) (xc xs xp : C34.Val) : Prop where
  table : Table cfg
  clouds : ∃ v, find cfg nClouds = some v ∧ Holds xc v.str
  storages : ∃ v, find cfg nStorages = some v ∧ Holds xs v.str
  pipeline : ∃ v, find cfg nPipeline = some v ∧ Holds xp v.str
  plain : ∀ v ∈ cfg, Saved v → v.type ≠ .data → Valid 2 (fun s => delimited false s = true) SmallInt C35.Plain v
  uuid : ∃ v u, find cfg (cstr "uuid") = some v ∧ Uuid.fromString ⟨0, 0⟩ (v.str.map (·.toNat)) = some u

/-- The objects are right by themselves. -/
structure Objs (cl : List CloudConfig) (so : List Source) (ti : List TierConfig) : Prop where
  clouds : ∀ c ∈ cl, CloudOk c ∧ create_object c = .ok c
  clen : cl.length < 2147483648
  sources : ∀ s ∈ so, SourceOk s
  slen : so.length < 2147483648
  link : ∀ s ∈ so, s.cloud = [] ∨ s.cloud ∈ cl.map (·.name)
  tiers : ∀ t ∈ ti, TierOk t ∧ t.name ∈ so.map (·.name)
  tlen : ti.length < 2147483648

/-- Plain variables of one are those of the other. -/
def Agree (a b : List Var) : Prop :=
  ∀ name v, find a name = some v → Saved v → v.type ≠ .data → ∃ w, find b name = some w ∧ C35.Same v w

theorem same_symm {v w : Var} (h : C35.Same v w) (hd : v.type ≠ .data) : C35.Same w v := by
  obtain ⟨h1, h2, h3, h4⟩ := h
  refine ⟨h1.symm, h2.symm, h3.symm, ?_⟩
  rw [← h2]
  cases ht : v.type with
  | bool => rw [ht] at h4; exact h4.symm
  | int => rw [ht] at h4; exact h4.symm
  | string => rw [ht] at h4; exact h4.symm
  | data => exact absurd ht hd

theorem same_trans {u v w : Var} (h : C35.Same u v) (h' : C35.Same v w) (hd : u.type ≠ .data) : C35.Same u w := by
  obtain ⟨h1, h2, h3, h4⟩ := h
  obtain ⟨k1, k2, k3, k4⟩ := h'
  refine ⟨h1.trans k1, h2.trans k2, h3.trans k3, ?_⟩
  rw [← h2] at k4
  cases ht : u.type with
  | bool => rw [ht] at h4 k4; exact h4.trans k4
  | int => rw [ht] at h4 k4; exact h4.trans k4
  | string => rw [ht] at h4 k4; exact h4.trans k4
  | data => exact absurd ht hd

theorem saved_same {v w : Var} (h : C35.Same v w) (hs : Saved v) : Saved w := by
  unfold Saved Var.is at *
  rw [← h.2.2.1]; exact hs

theorem Agree.refl {a : List Var} : Agree a a := by
  intro name v h _ hd
  refine ⟨v, h, rfl, rfl, rfl, ?_⟩
  cases ht : v.type with
  | bool => rfl
  | int => rfl
  | string => rfl
  | data => exact absurd ht hd

theorem Agree.trans {a b c : List Var} (h : Agree a b) (h' : Agree b c) : Agree a c := by
  intro name v hf hs hd
  obtain ⟨w, h1, h2⟩ := h name v hf hs hd
  obtain ⟨u, h3, h4⟩ := h' name w h1 (saved_same h2 hs) (by rw [← h2.2.1]; exact hd)
  exact ⟨u, h3, same_trans h2 h4 hd⟩

theorem Agree.symm {a b : List Var} (ha : Table a) (hb : Table b) (h : Agree a b) : Agree b a := by
  intro name v hf hs hd
  obtain ⟨u, h1, h2⟩ := find_shape (show b.map shape = a.map shape from hb.trans ha.symm) hf
  simp only [shape, Prod.mk.injEq] at h2
  have hsu : Saved u := by unfold Saved Var.is at *; rw [h2.2.2]; exact hs
  obtain ⟨w, h3, h4⟩ := h name u h1 hsu (by rw [h2.2.1]; exact hd)
  rw [hf] at h3
  cases h3
  exact ⟨u, h1, same_symm h4 (by rw [h2.2.1]; exact hd)⟩

/-- Looking for a variable of the table. -/
theorem find_table {cfg : List Var} (h : Table cfg) {p : Var} {name : Bytes} (hp : find prepare name = some p) :
    ∃ v, find cfg name = some v ∧ v.name = name ∧ v.type = p.type ∧ v.flags = p.flags := by
  obtain ⟨v, h1, h2⟩ := find_shape (show prepare.map shape = cfg.map shape from h.symm) hp
  simp only [shape, Prod.mk.injEq] at h2
  exact ⟨v, h1, (Config.find_mem h1).2, h2.2⟩

theorem data_names : ∀ s ∈ prepare.map shape, (s.2.2 &&& 16 > 0) = false → s.2.1 = .data → s.1 = nClouds ∨ s.1 = nStorages ∨ s.1 = nPipeline := by
  decide +kernel

theorem names_ne : nClouds ≠ nStorages ∧ nClouds ≠ nPipeline ∧ nStorages ≠ nPipeline := by decide +kernel

theorem table_nodup {cfg : List Var} (h : Table cfg) : (cfg.map (·.name)).Nodup := by
  rw [table_names h]; exact prepare_nodup

/-- The value of a list variable. -/
def valOf (xc xs xp : C34.Val) (v : Var) : C34.Val :=
  if v.name = nClouds then xc else if v.name = nStorages then xs else xp

theorem vars_chosen {cfg : List Var} {xc xs xp : C34.Val} (h : Vars cfg xc xs xp) {d : Nat} (hd : 4 ≤ d)
    (hx : ∀ x, x = xc ∨ x = xs ∨ x = xp → Fits (fun _ => True) x ∧ C35.Plain x ∧ depth x ≤ 3) {v : Var} (hv : v ∈ cfg) (hs : Saved v) :
    Chosen d (valOf xc xs xp v) v := by
  intro ht
  have hf := find_of_mem (table_nodup h.table) hv
  have fin : ∀ x, (x = xc ∨ x = xs ∨ x = xp) → Holds x v.str → Holds x v.str ∧ Fits (fun _ => True) x ∧ C35.Plain x ∧ depth x + 1 ≤ d := by
    intro x h1 h2
    obtain ⟨k1, k2, k3⟩ := hx x h1
    exact ⟨h2, k1, k2, by omega⟩
  unfold valOf
  have hn := data_names _ (table_mem h.table hv) (by simpa [shape, Saved, Var.is] using hs) (by simpa [shape] using ht)
  simp only [shape] at hn
  by_cases e1 : v.name = nClouds
  · rw [if_pos e1]
    obtain ⟨w, h1, h2⟩ := h.clouds
    rw [← e1, hf] at h1
    cases h1
    exact fin _ (.inl rfl) h2
  · rw [if_neg e1]
    by_cases e2 : v.name = nStorages
    · rw [if_pos e2]
      obtain ⟨w, h1, h2⟩ := h.storages
      rw [← e2, hf] at h1
      cases h1
      exact fin _ (.inr (.inl rfl)) h2
    · rw [if_neg e2]
      have e3 : v.name = nPipeline := by rcases hn with h | h | h <;> first | exact absurd h e1 | exact absurd h e2 | exact h
      obtain ⟨w, h1, h2⟩ := h.pipeline
      rw [← e3, hf] at h1
      cases h1
      exact fin _ (.inr (.inr rfl)) h2

theorem vars_valid {cfg : List Var} {xc xs xp : C34.Val} (h : Vars cfg xc xs xp) {d : Nat} (hd : 4 ≤ d)
    (hx : ∀ x, x = xc ∨ x = xs ∨ x = xp → Fits (fun _ => True) x ∧ C35.Plain x ∧ depth x ≤ 3) {v : Var} (hv : v ∈ cfg) (hs : Saved v) :
    Valid d (fun s => delimited false s = true) SmallInt C35.Plain v := by
  by_cases ht : v.type = .data
  · unfold Valid
    rw [ht]
    exact ⟨_, vars_chosen h hd hx hv hs ht⟩
  · have := h.plain v hv hs ht
    unfold Valid at *
    cases e : v.type with
    | bool => rw [e] at this; exact this
    | int => rw [e] at this; exact this
    | string => rw [e] at this; exact this
    | data => exact absurd e ht

theorem valid_same {v w : Var} (h : C35.Same v w) (ht : v.type ≠ .data)
    (hv : Valid 2 (fun s => delimited false s = true) SmallInt C35.Plain v) :
    Valid 2 (fun s => delimited false s = true) SmallInt C35.Plain w := by
  obtain ⟨h1, h2, h3, h4⟩ := h
  unfold Valid at *
  rw [← h2]
  cases e : v.type with
  | bool => rw [e] at hv h4; dsimp only at hv h4 ⊢; rw [← h4]; exact hv
  | int => rw [e] at hv h4; dsimp only at hv h4 ⊢; rw [← h4]; exact hv
  | string => rw [e] at hv h4; dsimp only at hv h4 ⊢; rw [← h4]; exact hv
  | data => exact absurd e ht

theorem find_uuid {cfg : List Var} (h : Table cfg) :
    ∃ v, find cfg (cstr "uuid") = some v ∧ v.type = .string ∧ Saved v := by
  obtain ⟨v, h1, _, h2, h3⟩ := find_table h (show find prepare (cstr "uuid") = some (add "uuid" .string 1 "" 0) by decide +kernel)
  exact ⟨v, h1, h2, by unfold Saved Var.is; rw [h3]; decide⟩

theorem find_list {cfg : List Var} (h : Table cfg) {name : Bytes} (hn : name = nClouds ∨ name = nStorages ∨ name = nPipeline) :
    ∃ v, find cfg name = some v ∧ v.name = name ∧ v.type = .data ∧ Saved v := by
  have : ∃ p, find prepare name = some p ∧ p.type = .data ∧ p.flags = 5 := by
    rcases hn with rfl | rfl | rfl
    · exact ⟨add "clouds" .data 5 "" 0, by decide +kernel, rfl, rfl⟩
    · exact ⟨add "storages" .data 5 "" 0, by decide +kernel, rfl, rfl⟩
    · exact ⟨add "pipeline" .data 5 "" 0, by decide +kernel, rfl, rfl⟩
  obtain ⟨p, h0, h4, h5⟩ := this
  obtain ⟨v, h1, hn, h2, h3⟩ := find_table h h0
  exact ⟨v, h1, hn, by rw [h2, h4], by unfold Saved Var.is; rw [h3, h5]; decide⟩

/-- Saving succeeds, and the file opens with the same values. -/
theorem vars_open {cfg0 : List Var} {xc xs xp : C34.Val} (h : Vars cfg0 xc xs xp) {m : Machine} (hd : 4 ≤ m.depth)
    (hx : ∀ x, x = xc ∨ x = xs ∨ x = xp → Fits (fun _ => True) x ∧ C35.Plain x ∧ depth x ≤ 3) :
    ∃ text, saveText m.fmt m.depth cfg0 = .ok text ∧ ∀ fresh, Table fresh → ∃ cfg,
      open_ m.fp m.fmt m.depth fresh ⟨some text, none⟩ = .ok (cfg, ⟨some text, none⟩) ∧ Vars cfg xc xs xp ∧ Agree cfg0 cfg := by
  have key := fun fresh (hf : Table fresh) => restores_of (fp := m.fp) (fmt := m.fmt) (d := m.depth) (by omega) h.table hf
    (fun v hv hs => vars_valid h hd hx hv hs) (valOf xc xs xp) (fun v hv hs => vars_chosen h hd hx hv hs)
  obtain ⟨text, h1, -⟩ := key prepare rfl
  refine ⟨text, h1, fun fresh hf => ?_⟩
  obtain ⟨text', h1', h2⟩ := key fresh hf
  rw [h1] at h1'
  cases h1'
  obtain ⟨cfg, h3, h4, h5⟩ := h2 none
  have hag : Agree cfg0 cfg := by
    intro name v e hs _
    obtain ⟨w, k1, k2, _⟩ := h5 name v e
    exact ⟨w, k1, (k2 hs).1⟩
  have lists : ∀ name x, (name = nClouds ∨ name = nStorages ∨ name = nPipeline) → (∀ v : Var, v.name = name → valOf xc xs xp v = x) →
      ∃ v, find cfg name = some v ∧ Holds x v.str := by
    intro name x hn hval
    obtain ⟨v, k1, k0, k2, k3⟩ := find_list h.table hn
    obtain ⟨w, k4, k5, _⟩ := h5 name v k1
    refine ⟨w, k4, .inr ?_⟩
    rw [(k5 k3).2 k2, hval v k0]
    exact Json.encodes_enc32 x
  refine ⟨cfg, h3, ⟨h4, ?_, ?_, ?_, ?_, ?_⟩, hag⟩
  · exact lists _ _ (.inl rfl) fun v e => by unfold valOf; rw [if_pos e]
  · exact lists _ _ (.inr (.inl rfl)) fun v e => by
      unfold valOf; rw [if_neg (by rw [e]; exact names_ne.1.symm), if_pos e]
  · exact lists _ _ (.inr (.inr rfl)) fun v e => by
      unfold valOf; rw [if_neg (by rw [e]; exact names_ne.2.1.symm), if_neg (by rw [e]; exact names_ne.2.2.symm)]
  · intro w hw hs ht
    have hf' := find_of_mem (table_nodup h4) hw
    obtain ⟨v, k1, k2⟩ := hag.symm h.table h4 _ _ hf' hs ht
    have hv := (Config.find_mem k1).1
    exact valid_same (same_symm k2 ht) (by rw [← k2.2.1]; exact ht) (h.plain v hv (saved_same k2 hs) (by rw [← k2.2.1]; exact ht))
  · obtain ⟨v, u, k1, k2⟩ := h.uuid
    obtain ⟨v', k3, k4, k5⟩ := find_uuid h.table
    rw [k1] at k3
    cases k3
    obtain ⟨w, k6, k7⟩ := hag _ _ k1 k5 (by rw [k4]; nofun)
    have := k7.2.2.2
    rw [k4] at this
    exact ⟨w, u, k6, by rw [← this]; exact k2⟩

/-! ### Setting the lists -/

theorem set_data_find {cfg : List Var} (h : Table cfg) {name : Bytes} (hn : name = nClouds ∨ name = nStorages ∨ name = nPipeline)
    (b : Bytes) : ∃ v, find cfg name = some v ∧ v.name = name ∧ v.type = .data ∧ Reopen.set_data cfg name b = update cfg name { v with str := b } ∧
      Table (Reopen.set_data cfg name b) ∧
      ∀ n, find (Reopen.set_data cfg name b) n = if name = n then some { v with str := b } else find cfg n := by
  obtain ⟨v, h1, h2, h3, _⟩ := find_list h hn
  have e : Reopen.set_data cfg name b = update cfg name { v with str := b } := by unfold Reopen.set_data; rw [h1]
  refine ⟨v, h1, h2, h3, e, ?_, fun n => ?_⟩
  · rw [e]
    exact (update_shape h1 (w := { v with str := b }) rfl).trans h
  · rw [e]
    exact find_update (w := { v with str := b }) h2 h1 n

theorem set_data_agree {cfg : List Var} (h : Table cfg) {name : Bytes} (hn : name = nClouds ∨ name = nStorages ∨ name = nPipeline)
    (b : Bytes) : Agree cfg (Reopen.set_data cfg name b) := by
  obtain ⟨v, h1, h2, h3, _, h5, h6⟩ := set_data_find h hn b
  intro n u hu hs hd
  obtain ⟨w, k1, k2⟩ := Agree.refl n u hu hs hd
  refine ⟨w, ?_, k2⟩
  rw [h6, if_neg]
  · exact k1
  · rintro rfl
    rw [h1] at hu
    cases hu
    exact hd h3

theorem set_data_plain {cfg : List Var} {xc xs xp : C34.Val} (h : Vars cfg xc xs xp) {name : Bytes}
    (hn : name = nClouds ∨ name = nStorages ∨ name = nPipeline) (b : Bytes) :
    (∀ v ∈ Reopen.set_data cfg name b, Saved v → v.type ≠ .data → Valid 2 (fun s => delimited false s = true) SmallInt C35.Plain v) ∧
    ∃ v u, find (Reopen.set_data cfg name b) (cstr "uuid") = some v ∧ Uuid.fromString ⟨0, 0⟩ (v.str.map (·.toNat)) = some u := by
  obtain ⟨v, h1, h2, h3, _, h5, h6⟩ := set_data_find h.table hn b
  constructor
  · intro w hw hs hd
    have hf := find_of_mem (table_nodup h5) hw
    rw [h6] at hf
    by_cases e : name = w.name
    · rw [if_pos e] at hf
      cases hf
      exact absurd h3 hd
    · rw [if_neg e] at hf
      exact h.plain w (Config.find_mem hf).1 hs hd
  · obtain ⟨w, u, k1, k2⟩ := h.uuid
    refine ⟨w, u, ?_, k2⟩
    rw [h6, if_neg]
    · exact k1
    · rintro rfl
      revert hn
      decide +kernel

theorem vars_clouds {cfg : List Var} {xc xs xp x : C34.Val} (h : Vars cfg xc xs xp) {b : Bytes} (hb : Holds x b) :
    Vars (Reopen.set_data cfg nClouds b) x xs xp := by
  obtain ⟨v, _, _, _, _, h5, h6⟩ := set_data_find h.table (.inl rfl) b
  obtain ⟨k1, k2⟩ := set_data_plain h (.inl rfl) b
  refine ⟨h5, ⟨_, by rw [h6, if_pos rfl], hb⟩, ?_, ?_, k1, k2⟩
  · rw [h6, if_neg names_ne.1]; exact h.storages
  · rw [h6, if_neg names_ne.2.1]; exact h.pipeline

theorem vars_storages {cfg : List Var} {xc xs xp x : C34.Val} (h : Vars cfg xc xs xp) {b : Bytes} (hb : Holds x b) :
    Vars (Reopen.set_data cfg nStorages b) xc x xp := by
  obtain ⟨v, _, _, _, _, h5, h6⟩ := set_data_find h.table (.inr (.inl rfl)) b
  obtain ⟨k1, k2⟩ := set_data_plain h (.inr (.inl rfl)) b
  refine ⟨h5, ?_, ⟨_, by rw [h6, if_pos rfl], hb⟩, ?_, k1, k2⟩
  · rw [h6, if_neg names_ne.1.symm]; exact h.clouds
  · rw [h6, if_neg names_ne.2.2]; exact h.pipeline

theorem vars_pipeline {cfg : List Var} {xc xs xp x : C34.Val} (h : Vars cfg xc xs xp) {b : Bytes} (hb : Holds x b) :
    Vars (Reopen.set_data cfg nPipeline b) xc xs x := by
  obtain ⟨v, _, _, _, _, h5, h6⟩ := set_data_find h.table (.inr (.inr rfl)) b
  obtain ⟨k1, k2⟩ := set_data_plain h (.inr (.inr rfl)) b
  refine ⟨h5, ?_, ?_, ⟨_, by rw [h6, if_pos rfl], hb⟩, k1, k2⟩
  · rw [h6, if_neg names_ne.2.1.symm]; exact h.clouds
  · rw [h6, if_neg names_ne.2.2.symm]; exact h.storages

/-! ### The environment -/

/-- The environment without its file. -/
structure Core (st : St) (xc xs xp : C34.Val) : Prop where
  vars : Vars st.cfg xc xs xp
  objs : Objs st.clouds (st.storages.map (·.source)) st.tiers
  xc : Shape clouds st.clouds xc
  xs : Shape sources (st.storages.map (·.source)) xs
  xp : Shape tiers st.tiers xp
  link : ∀ s ∈ st.storages, s.cloud = C80.cloudOf s.source
  main : cstr "main" ∈ (st.storages.map (·.source)).map (·.name)

/-- The file says what the variables say, or it was written before there were storages
and main is as it is made when there are none. -/
def OnDisk (m : Machine) (st : St) (xc xs xp : C34.Val) : Prop :=
  ∃ cfg0 xs0, Vars cfg0 xc xs0 xp ∧ saveText m.fmt m.depth cfg0 = .ok st.text ∧ Agree st.cfg cfg0 ∧
    (xs0 = xs ∨ (xs0 = .null ∧ ∃ c, main_source st.cfg = .ok c ∧ st.storages.map (·.source) = [c.copy]))

def Inv (m : Machine) (st : St) : Prop := ∃ xc xs xp, Core st xc xs xp ∧ OnDisk m st xc xs xp

theorem Core.facts {st : St} {xc xs xp : C34.Val} (h : Core st xc xs xp) :
    ∀ x, x = xc ∨ x = xs ∨ x = xp → Fits (fun _ => True) x ∧ C35.Plain x ∧ depth x ≤ 3 := by
  rintro x (rfl | rfl | rfl)
  · exact shape_facts h.xc h.objs.clen fun a ha => (h.objs.clouds a ha).1
  · exact shape_facts h.xs h.objs.slen h.objs.sources
  · exact shape_facts h.xp h.objs.tlen fun a ha => (h.objs.tiers a ha).1

theorem source_copy {a : Source} (h : SourceOk a) : a.copy = a := by
  have h1 := h.refresh
  have h2 := h.region
  have h3 := h.level
  unfold I32 at h1 h2 h3
  cases a
  simp only [Source.copy, Source.mk.injEq, true_and, and_true]
  dsimp only at h1 h2 h3
  unfold wrapS32
  omega

/-- A storage as it is made from its source. -/
def made (c : Source) : Settings.Storage := ⟨c, C80.cloudOf c, []⟩

theorem create_storage_ok {cl : List CloudConfig} {c : Source} (hc : c.cloud = [] ∨ c.cloud ∈ cl.map (·.name)) (hok : SourceOk c) :
    create_storage cl c = .ok (made c) := by
  unfold create_storage
  rcases C80.set_cloud_cases (cl.map (·.name)) c false with ⟨h1, h2⟩ | ⟨h1, h2, _, h3⟩ | ⟨h1, h2, _⟩
  · rw [h2, Res.bind_ok, source_copy hok]; simp [made, C80.cloudOf, h1]
  · rw [h3, Res.bind_ok, source_copy hok]; simp [made, C80.cloudOf, h1]
  · rcases hc with h | h
    · exact absurd h h1
    · exact absurd ⟨h, rfl⟩ h2

theorem find_storage {l : List Settings.Storage} {name : Bytes} (h : name ∈ (l.map (·.source)).map (·.name)) :
    ∃ s, Settings.find l name = some s := by
  cases e : Settings.find l name with
  | some s => exact ⟨s, rfl⟩
  | none =>
    rw [List.map_map] at h
    obtain ⟨s, h1, h2⟩ := List.mem_map.1 h
    exact absurd h2 (C80.find_none e s h1)

theorem made_sources (l : List Source) : (l.map made).map (·.source) = l := by
  rw [List.map_map]
  exact (List.map_congr_left fun _ _ => rfl).trans (List.map_id _)

/-- The variables that main is made of. -/
theorem find_strings {cfg : List Var} (h : Table cfg) :
    (∃ v, find cfg (cstr "compression") = some v ∧ v.type = .string ∧ Saved v) ∧
    ∃ v, find cfg (cstr "compression_level") = some v ∧ v.type = .int ∧ Saved v := by
  obtain ⟨v, h1, _, h2, h3⟩ := find_table h (show find prepare (cstr "compression") = some (add "compression" .string 3 "zstd" 0) by decide +kernel)
  obtain ⟨w, k1, _, k2, k3⟩ := find_table h (show find prepare (cstr "compression_level") = some (add "compression_level" .int 3 "" 0) by decide +kernel)
  exact ⟨⟨v, h1, h2, by unfold Saved Var.is; rw [h3]; decide⟩, ⟨w, k1, k2, by unfold Saved Var.is; rw [k3]; decide⟩⟩

theorem main_source_ok {cfg : List Var} {xc xs xp : C34.Val} (h : Vars cfg xc xs xp) : ∃ c, main_source cfg = .ok c ∧ SourceOk c.copy ∧
    c.cloud = [] ∧ c.name = cstr "main" := by
  obtain ⟨v, u, h1, h2⟩ := h.uuid
  obtain ⟨⟨p, k1, k2, k3⟩, ⟨q, k4, _, _⟩⟩ := find_strings h.table
  have hp := h.plain p (Config.find_mem k1).1 k3 (by rw [k2]; nofun)
  unfold Valid at hp
  rw [k2] at hp
  have hmain : Sound (cstr "main") := ⟨by unfold Short; decide +kernel, by unfold Delimited; decide +kernel⟩
  have hw : ∀ i, I32 (wrapS32 i) := by intro i; unfold I32 wrapS32; omega
  unfold main_source
  rw [h1, k1, k4]
  dsimp only
  rw [h2]
  dsimp only
  by_cases e : p.str = []
  · rw [if_pos e]
    exact ⟨_, rfl, ⟨fromString_ok h2, hmain, sound_nil, sound_nil, hw _, hw _, sound_nil, hw _, sound_nil, sound_nil⟩, rfl, rfl⟩
  · rw [if_neg e]
    exact ⟨_, rfl, ⟨fromString_ok h2, hmain, sound_nil, sound_nil, hw _, hw _, hp, hw _, sound_nil, sound_nil⟩, rfl, rfl⟩

theorem main_source_agree {a b : List Var} (ha : Table a) (h : Agree a b) : main_source b = main_source a := by
  obtain ⟨⟨p, k1, k2, k3⟩, ⟨q, k4, k5, k6⟩⟩ := find_strings ha
  obtain ⟨u, k7, k8, k9⟩ := find_uuid ha
  obtain ⟨p', h1, h2⟩ := h _ _ k1 k3 (by rw [k2]; nofun)
  obtain ⟨q', h3, h4⟩ := h _ _ k4 k6 (by rw [k5]; nofun)
  obtain ⟨u', h5, h6⟩ := h _ _ k7 k9 (by rw [k8]; nofun)
  have e1 := h2.2.2.2
  have e2 := h4.2.2.2
  have e3 := h6.2.2.2
  rw [k2] at e1
  rw [k5] at e2
  rw [k8] at e3
  dsimp only at e1 e2 e3
  unfold main_source
  rw [k1, k4, k7, h1, h3, h5]
  dsimp only
  rw [e1, e2, e3]

theorem shape_ne {α : Type} {K : Kept α} {l : List α} {x : C34.Val} (h : Shape K l x) (hl : l ≠ []) : x = .arr (vals (l.map K.val)) := by
  rcases h with h | ⟨_, h⟩
  · exact h
  · exact absurd h hl

/-- An environment opens as it is, and stays in order. -/
theorem boot_inv {m : Machine} (hd : 4 ≤ m.depth) {st : St} (h : Inv m st) {fresh : List Var} (hf : Table fresh) :
    ∃ st', boot m fresh (some st.text) = .ok st' ∧ Same st st' ∧ Inv m st' := by
  obtain ⟨xc, xs, xp, hc, cfg0, xs0, hv0, htext, hag, hxs⟩ := h
  have hx0 : ∀ x, x = xc ∨ x = xs0 ∨ x = xp → Fits (fun _ => True) x ∧ C35.Plain x ∧ depth x ≤ 3 := by
    rintro x (hx | hx | hx)
    · exact hc.facts x (.inl hx)
    · rcases hxs with h | ⟨h, _⟩
      · exact hc.facts x (.inr (.inl (hx.trans h)))
      · rw [hx, h]; exact ⟨trivial, trivial, by simp [depth]⟩
    · exact hc.facts x (.inr (.inr hx))
  obtain ⟨text, h1, h2⟩ := vars_open hv0 hd hx0
  rw [htext] at h1
  cases h1
  obtain ⟨cfg, h3, hv, hag'⟩ := h2 fresh hf
  have hagc : Agree st.cfg cfg := hag.trans hag'
  obtain ⟨vc, c1, c2⟩ := hv.clouds
  obtain ⟨vs, s1, s2⟩ := hv.storages
  obtain ⟨vp, p1, p2⟩ := hv.pipeline
  have hclouds : open_list CloudConfig.read create_object cfg nClouds = .ok st.clouds := by
    have := open_list_ok clouds create_object (fun c => c) c1 hc.xc c2 hc.objs.clen (fun a ha => (hc.objs.clouds a ha).1)
      fun a ha => (hc.objs.clouds a ha).2
    rw [List.map_id'] at this
    exact this
  have hne : st.storages.map (·.source) ≠ [] := by
    intro e
    have := hc.main
    rw [e] at this
    cases this
  -- the end of it
  have fin : ∀ (cfg' : List Var) (l : List Settings.Storage), Vars cfg' xc xs xp → Agree cfg cfg' → find cfg' nPipeline = some vp →
      l.map (·.source) = st.storages.map (·.source) → (∀ s ∈ l, s.cloud = C80.cloudOf s.source) →
      ∃ st', ((open_list TierConfig.read (create_tier l) cfg' nPipeline).bind fun tiers =>
          (.ok ⟨cfg', st.clouds, l, tiers, st.text⟩ : Res St)) = .ok st' ∧ Same st st' ∧ Inv m st' := by
    intro cfg' l hv' hag2 hp hl hlk
    have hag3 := hagc.trans hag2
    have ht : open_list TierConfig.read (create_tier l) cfg' nPipeline = .ok st.tiers := by
      have := open_list_ok tiers (create_tier l) (fun t => t) hp hc.xp p2 hc.objs.tlen (fun a ha => (hc.objs.tiers a ha).1)
        fun a ha => by
          obtain ⟨s, hs⟩ := find_storage (l := l) (name := a.name) (by rw [hl]; exact (hc.objs.tiers a ha).2)
          unfold create_tier
          rw [hs]
      rw [List.map_id'] at this
      exact this
    rw [ht, Res.bind_ok]
    refine ⟨_, rfl, ⟨rfl, hl, ?_, rfl, ?_⟩, xc, xs, xp, ⟨hv', ?_, hc.xc, ?_, hc.xp, hlk, ?_⟩, cfg0, xs0, hv0, htext, ?_, ?_⟩
    · have e1 : l.map (·.cloud) = (l.map (·.source)).map C80.cloudOf := by
        rw [List.map_map]; exact List.map_congr_left hlk
      have e2 : st.storages.map (·.cloud) = (st.storages.map (·.source)).map C80.cloudOf := by
        rw [List.map_map]; exact List.map_congr_left hc.link
      dsimp only
      rw [e1, e2, hl]
    · intro name v hfv hs
      by_cases hdt : v.type = .data
      · have hm := Config.find_mem hfv
        have hn := data_names _ (table_mem hc.vars.table hm.1) (by simpa [shape, Saved, Var.is] using hs) (by simpa [shape] using hdt)
        simp only [shape, hm.2] at hn
        have go : ∀ x, (∃ v, find st.cfg name = some v ∧ Holds x v.str) → (∃ w, find cfg' name = some w ∧ Holds x w.str) →
            ∃ w, find cfg' name = some w ∧ C35.Same v w := by
          rintro x ⟨v', k1, k2⟩ ⟨w, k3, k4⟩
          rw [hfv] at k1
          cases k1
          obtain ⟨w', k5, k6⟩ := find_shape (show st.cfg.map shape = cfg'.map shape from hc.vars.table.trans hv'.table.symm) hfv
          rw [k3] at k5
          cases k5
          simp only [shape, Prod.mk.injEq] at k6
          refine ⟨w, k3, k6.1.symm, k6.2.1.symm, k6.2.2.symm, ?_⟩
          rw [hdt]
          exact ⟨x, k2, k4⟩
        rcases hn with rfl | rfl | rfl
        · exact go _ hc.vars.clouds hv'.clouds
        · exact go _ hc.vars.storages hv'.storages
        · exact go _ hc.vars.pipeline hv'.pipeline
      · exact hag3 name v hfv hs hdt
    · dsimp only; rw [hl]; exact hc.objs
    · dsimp only; rw [hl]; exact hc.xs
    · dsimp only; rw [hl]; exact hc.main
    · exact (hag3.symm hc.vars.table hv'.table).trans hag
    · rcases hxs with e | ⟨e, c, k1, k2⟩
      · exact .inl e
      · refine .inr ⟨e, c, ?_, by dsimp only; rw [hl, k2]⟩
        rw [main_source_agree hc.vars.table hag3, k1]
  obtain ⟨c, m1, m2, m3, m4⟩ := main_source_ok hv
  unfold boot
  rw [h3, Res.bind_ok]
  dsimp only
  rw [show cstr "clouds" = nClouds from rfl, hclouds, Res.bind_ok]
  rcases hxs with e | ⟨e, c', k1, k2⟩
  · subst e
    have hst : open_list Source.read (create_storage st.clouds) cfg nStorages = .ok ((st.storages.map (·.source)).map made) :=
      open_list_ok sources (create_storage st.clouds) made s1 hc.xs s2 hc.objs.slen hc.objs.sources
        fun a ha => create_storage_ok (hc.objs.link a ha) (hc.objs.sources a ha)
    rw [show cstr "storages" = nStorages from rfl, hst, Res.bind_ok]
    obtain ⟨s, hs⟩ := find_storage (l := (st.storages.map (·.source)).map made) (name := c.name) (by
      rw [made_sources, m4]; exact hc.main)
    unfold create_main
    dsimp only
    rw [m1, Res.bind_ok, hs]
    dsimp only
    rw [Res.bind_ok]
    refine fin cfg _ hv Agree.refl p1 (made_sources _) ?_
    intro s hs
    obtain ⟨a, _, rfl⟩ := List.mem_map.1 hs
    rfl
  · subst e
    have hst : open_list Source.read (create_storage st.clouds) cfg nStorages = .ok [] :=
      open_list_ok sources (create_storage st.clouds) made s1 (.inr ⟨rfl, rfl⟩) s2 (by simp) (by simp) (by simp)
    rw [show cstr "storages" = nStorages from rfl, hst, Res.bind_ok]
    have ecc : c' = c := by
      rw [main_source_agree hc.vars.table hagc, k1] at m1
      cases m1; rfl
    subst ecc
    unfold create_main
    dsimp only
    rw [m1, Res.bind_ok]
    have : Settings.find ([] : List Settings.Storage) c'.name = none := rfl
    rw [this]
    dsimp only
    rw [Res.bind_ok]
    unfold save_storages
    dsimp only [List.nil_append]
    have hb : Holds xs (data_write_array 1 ++ [(⟨c'.copy, none, []⟩ : Settings.Storage)].flatMap fun s => s.source.write) := by
      rw [shape_ne hc.xs hne, k2]
      refine .inr ?_
      exact encodes_list sources [c'.copy]
    obtain ⟨_, _, _, _, _, h5, h6⟩ := set_data_find hv.table (.inr (.inl rfl))
      (data_write_array 1 ++ [(⟨c'.copy, none, []⟩ : Settings.Storage)].flatMap fun s => s.source.write)
    refine fin _ _ (vars_storages hv hb) (set_data_agree hv.table (.inr (.inl rfl)) _) ?_ (by rw [k2]; rfl) ?_
    · exact (h6 nPipeline).trans ((if_neg names_ne.2.2).trans p1)
    · intro s hs
      simp only [List.mem_singleton] at hs
      subst hs
      simp [C80.cloudOf, Source.copy, m3]
