import Verif.Proofs.C63

namespace Verif.C63
open Data Decode Show C34 C35 Json

/-- Partial: no SHOW command without the name of one of the two variables tells
apart states that differ in secrets: SHOW CLOUDS, STORAGES, CONFIG and all the
others, with and without DEBUG.  Missing from the full property: the variables
`clouds` and `storages` by name (false, below). -/
theorem C63_show_partial (fmt : Nat → Bytes) (depth : Nat) (ops : List Parse.ShowOp) (w w' : World)
    (hw : Table w.vars) (hw' : Table w'.vars) (h : Alike w w') (ha : ∀ op ∈ ops, ¬ Asks op) :
    execute_show fmt depth w ops = execute_show fmt depth w' ops := by
  unfold execute_show
  rw [← show_ops_blank hw ops ha, ← show_ops_blank hw' ops ha, blank_alike h]

/-- SHOW of the variable `clouds` has every password in its answer. -/
theorem C63_passwords_shown (fmt : Nat → Bytes) (d : Nat) (debug : Bool) (w : World) (hw : Saved w) (hd : 3 ≤ d)
    (hl : w.clouds.length < 2147483648) (hp : ∀ c ∈ w.clouds, Plain (cloudVal c)) :
    ∃ t, execute_show fmt d w [⟨.name, .name (Lex.bytes "clouds"), debug⟩] = .ok t ∧
      ∀ c ∈ w.clouds, c.password <:+: t := by
  obtain ⟨v, hf, hm, hn, ht, hfl⟩ := table_find hw.table (name := cstr "clouds") (ty := .data) (fl := 5)
    (by decide +kernel) (by decide +kernel)
  have e : (Lex.bytes "clouds").map UInt8.ofNat = cstr "clouds" := by decide +kernel
  refine ⟨_, show_data (by rw [e]; exact hf) ht (by simp [Config.Var.is, hfl])
    ((hw.clouds v hm hn).trans (enc_list cloudVal _ enc_cloud w.clouds).symm) (plain_list _ _ hl hp)
    (Nat.le_trans (depth_list cloudVal _ 2 (fun c => by simp [cloudVal, depth, depthMap])) hd), fun c hc => ?_⟩
  obtain ⟨p, q, e1⟩ := password_shown c true 0
  obtain ⟨p', q', e2⟩ := text_list cloudVal w.clouds true 0 c hc
  exact ⟨p' ++ p, q ++ q', by rw [← e2, ← e1]; simp⟩

/-- SHOW of the variable `storages` has every encryption key in its answer. -/
theorem C63_keys_shown (fmt : Nat → Bytes) (d : Nat) (debug : Bool) (w : World) (hw : Saved w) (hd : 3 ≤ d)
    (hl : w.storages.length < 2147483648) (hp : ∀ s ∈ w.storages, Plain (sourceVal s.source)) :
    ∃ t, execute_show fmt d w [⟨.name, .name (Lex.bytes "storages"), debug⟩] = .ok t ∧
      ∀ s ∈ w.storages, s.source.encryption_key <:+: t := by
  obtain ⟨v, hf, hm, hn, ht, hfl⟩ := table_find hw.table (name := cstr "storages") (ty := .data) (fl := 5)
    (by decide +kernel) (by decide +kernel)
  have e : (Lex.bytes "storages").map UInt8.ofNat = cstr "storages" := by decide +kernel
  refine ⟨_, show_data (by rw [e]; exact hf) ht (by simp [Config.Var.is, hfl])
    ((hw.storages v hm hn).trans (enc_list (fun s : Storage => sourceVal s.source) _ (fun s => enc_source s.source) w.storages).symm)
    (plain_list _ _ hl hp)
    (Nat.le_trans (depth_list (fun s : Storage => sourceVal s.source) _ 2 (fun c => by simp [sourceVal, depth, depthMap])) hd),
    fun s hs => ?_⟩
  obtain ⟨p, q, e1⟩ := key_shown s.source true 0
  obtain ⟨p', q', e2⟩ := text_list (fun s : Storage => sourceVal s.source) w.storages true 0 s hs
  exact ⟨p' ++ p, q ++ q', by rw [← e2, ← e1]; simp⟩

/-! A database with a cloud, with one of two passwords. -/

/-- The cloud. -/
def cloud0 (password : String) : CloudConfig :=
  ⟨cstr "aws", cstr "s3", cstr "me", cstr password, cstr "host", false⟩

/-- The storage. -/
def storage0 (key : String) : Storage :=
  ⟨1, { Source.allocate with name := cstr "main", encryption := cstr "aes", encryption_key := cstr key }, [1]⟩

/-- The database: a partition in the storage. -/
def world0 (password key : String) : World :=
  { mem := Mm.init 2097152 0 false false 0
    vars := Config.prepare.map fun v =>
      if v.name = cstr "clouds" then { v with str := data_write_array 1 ++ (cloud0 password).write }
      else if v.name = cstr "storages" then { v with str := data_write_array 1 ++ (storage0 key).source.write }
      else v
    wal := [7]
    clouds := [cloud0 password]
    storages := [storage0 key]
    part := fun _ => ⟨0, 99, 1, { events := 5 }, 2, 0, 1, 0, 3, 4, 1⟩
    map := ⟨.node .black .nil ⟨0, 99, 1⟩ .nil, 1⟩
    tiers := [⟨cstr "main", -1, -1, -1, -1⟩] }

theorem world0_saved (password key : String) : Saved (world0 password key) := by
  refine ⟨?_, ?_, ?_⟩
  · unfold Table world0
    rw [List.map_map]
    apply List.map_congr_left
    intro v _
    simp only [Function.comp]
    split
    · rfl
    · split <;> rfl
  · intro v hv hn
    simp only [world0, List.mem_map] at hv
    obtain ⟨u, hu, rfl⟩ := hv
    split at hn
    · next h => rw [if_pos h]; simp [world0]
    · split at hn
      · next h => exact absurd (h.symm.trans hn) (by decide +kernel)
      · next h _ => exact absurd hn h
  · intro v hv hn
    simp only [world0, List.mem_map] at hv
    obtain ⟨u, hu, rfl⟩ := hv
    split at hn
    · next h => exact absurd (h.symm.trans hn) (by decide +kernel)
    · split at hn
      · next h1 h => rw [if_neg h1, if_pos h]; simp [world0]
      · next h => exact absurd hn h

theorem world0_alike (p p' k k' : String) : Alike (world0 p k) (world0 p' k') := by
  refine ⟨rfl, rfl, rfl, rfl, rfl, rfl, rfl, ?_⟩
  simp only [world0, List.map_map]
  apply List.map_congr_left
  intro v _
  simp only [Function.comp]
  split
  · next h => simp [openVar, Secret, h]
  · split
    · next h => simp [openVar, Secret, h]
    · rfl

/-- C63 is false of the code: `SHOW CONFIG clouds` shows the password. -/
theorem C63_false : ¬ Full := by
  intro h
  have := h (fun _ => []) 9 ⟨1000, [], 0, ⟨1, 2⟩, []⟩ (Lex.bytes "show config clouds")
    [⟨.name, .name (Lex.bytes "clouds"), false⟩] _ _ (by decide +kernel)
    (world0_saved "one" "k") (world0_saved "two" "k") (world0_alike ..)
  revert this
  decide +kernel

/-- The text that is shown. -/
example : execute_show (fun _ => []) 9 (world0 "one" "k") [⟨.name, .name (Lex.bytes "clouds"), false⟩] = .ok (cstr
    "[{\n  \"name\": \"aws\",\n  \"type\": \"s3\",\n  \"login\": \"me\",\n  \"password\": \"one\",\n  \"url\": \"host\",\n  \"debug\": false\n}]") := by
  decide +kernel

/-- SHOW CLOUDS is not told apart, and says this. -/
example : (∀ op ∈ [(⟨.clouds, .keyword (.kw "clouds") [], false⟩ : Parse.ShowOp)], ¬ Asks op) ∧
    execute_show (fun _ => []) 9 (world0 "one" "k") [⟨.clouds, .keyword (.kw "clouds") [], false⟩] = .ok (cstr
    "{\n  \"aws\": {\n    \"name\": \"aws\",\n    \"type\": \"s3\",\n    \"login\": \"me\",\n    \"password\": \"(secret)\",\n    \"url\": \"host\",\n    \"debug\": false\n  }\n}") := by
  refine ⟨?_, by decide +kernel⟩
  intro op hop h
  simp only [List.mem_singleton] at hop
  subst hop
  cases h.1

/-- The hypotheses of the other theorems hold of this database. -/
example : Saved (world0 "one" "k") ∧ (world0 "one" "k").clouds.length < 2147483648 ∧
    ∀ c ∈ (world0 "one" "k").clouds, Plain (cloudVal c) := by
  refine ⟨world0_saved .., by decide, fun c hc => ?_⟩
  simp only [world0, List.mem_singleton] at hc
  subst hc
  simp only [cloudVal, Plain, PlainMap, Maps.len]
  decide +kernel

/-- And the keys. -/
example : (world0 "one" "k").storages.length < 2147483648 ∧
    ∀ s ∈ (world0 "one" "k").storages, Plain (sourceVal s.source) := by
  refine ⟨by decide, fun s hs => ?_⟩
  simp only [world0, List.mem_singleton] at hs
  subst hs
  simp only [sourceVal, Plain, PlainMap, Maps.len, SmallInt]
  decide +kernel

end Verif.C63
