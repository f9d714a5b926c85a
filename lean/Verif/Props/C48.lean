import Verif.Proofs.C48

/-! C48: decoding a stored object checks every field. -/
namespace Verif.C48
open C34 Data Decode

theorem source_table : TableOK source Source.table where
  names := by decide +kernel
  nodup := by decide +kernel
  targets := by
    intro i e f he hf
    rcases i with _|_|_|_|_|_|_|_|_|_|_|_|_|i
    all_goals first
      | (cases he; cases hf; exact ⟨rfl, fun _ _ => rfl⟩)
      | (simp [Source.table] at he)

theorem cloud_table : TableOK cloud CloudConfig.table where
  names := by decide +kernel
  nodup := by decide +kernel
  targets := by
    intro i e f he hf
    rcases i with _|_|_|_|_|_|i
    all_goals first
      | (cases he; cases hf; exact ⟨rfl, fun _ _ => rfl⟩)
      | (simp [CloudConfig.table] at he)

theorem tier_table : TableOK tier TierConfig.table where
  names := by decide +kernel
  nodup := by decide +kernel
  targets := by
    intro i e f he hf
    rcases i with _|_|_|_|_|i
    all_goals first
      | (cases he; cases hf; exact ⟨rfl, fun _ _ => rfl⟩)
      | (simp [TierConfig.table] at he)

/-- Every stored map is either read completely, each field holding the last value
stored under its name and all unknown keys reported, or rejected. -/
theorem C48_source_checks : Checks source := fun l bs rest hf he =>
  decode_spec source_table Source.allocate rfl l bs rest hf he

theorem C48_cloud_checks : Checks cloud := fun l bs rest hf he =>
  decode_spec cloud_table CloudConfig.allocate rfl l bs rest hf he

theorem C48_tier_checks : Checks tier := fun l bs rest hf he =>
  decode_spec tier_table TierConfig.allocate rfl l bs rest hf he

theorem C48_source_round_trip : WriteRead source := by
  intro a rest hf
  obtain ⟨hu, h1, h2, h3, h4, h5, h6, h7, h8, h9⟩ := hf
  refine writeRead_of source_table Source.allocate (fun _ => rfl) (fun _ => rfl) ?_ a
    [(cstr "uuid", .str (a.uuid.text.map UInt8.ofNat)), (cstr "name", .str a.name),
     (cstr "path", .str a.path), (cstr "cloud", .str a.cloud),
     (cstr "cloud_drop_local", .bool a.cloud_drop_local), (cstr "sync", .bool a.sync),
     (cstr "crc", .bool a.crc), (cstr "refresh_wm", .int a.refresh_wm),
     (cstr "region_size", .int a.region_size), (cstr "compression", .str a.compression),
     (cstr "compression_level", .int a.compression_level), (cstr "encryption", .str a.encryption),
     (cstr "encryption_key", .str a.encryption_key)] rfl ?_ ?_ (by simp) ?_ rest
  · intro a a' h
    cases a; cases a'
    simp only [source, List.cons.injEq, FV.uuid.injEq, FV.string.injEq, FV.int.injEq, FV.bool.injEq] at h
    simp [h]
  · exact ⟨⟨_, rfl, uuidText_text a.uuid hu⟩, rfl, rfl, rfl, rfl, rfl, rfl, rfl, rfl, rfl, rfl, rfl, rfl, trivial⟩
  · simp [source, Source.write, enc, encMap, treeOf, Maps.len]
  · have hk : ∀ p ∈ source.fields, p.1.length + 5 < 2147483648 := by decide +kernel
    have hul : (a.uuid.text.map UInt8.ofNat).length + 5 < 2147483648 := by
      simp [C45.text_length]
    simp only [List.forall_mem_cons, Fits, S, I] at *
    simp only [source, List.forall_mem_cons] at hk
    refine ⟨⟨hk.1, hul⟩, ⟨hk.2.1, h1⟩, ⟨hk.2.2.1, h2⟩, ⟨hk.2.2.2.1, h3⟩, ⟨hk.2.2.2.2.1, trivial⟩,
      ⟨hk.2.2.2.2.2.1, trivial⟩, ⟨hk.2.2.2.2.2.2.1, trivial⟩, ⟨hk.2.2.2.2.2.2.2.1, h4⟩,
      ⟨hk.2.2.2.2.2.2.2.2.1, h5⟩, ⟨hk.2.2.2.2.2.2.2.2.2.1, h6⟩, ⟨hk.2.2.2.2.2.2.2.2.2.2.1, h7⟩,
      ⟨hk.2.2.2.2.2.2.2.2.2.2.2.1, h8⟩, ⟨hk.2.2.2.2.2.2.2.2.2.2.2.2.1, h9⟩, by simp⟩

theorem C48_cloud_round_trip : WriteRead cloud := by
  intro a rest hf
  obtain ⟨h1, h2, h3, h4, h5⟩ := hf
  refine writeRead_of cloud_table CloudConfig.allocate (fun _ => rfl) (fun _ => rfl) ?_ a
    [(cstr "name", .str a.name), (cstr "type", .str a.type), (cstr "login", .str a.login),
     (cstr "password", .str a.password), (cstr "url", .str a.url), (cstr "debug", .bool a.debug)]
    rfl ?_ ?_ (by simp) ?_ rest
  · intro a a' h
    cases a; cases a'
    simp only [cloud, List.cons.injEq, FV.string.injEq, FV.bool.injEq] at h
    simp [h]
  · exact ⟨rfl, rfl, rfl, rfl, rfl, rfl, trivial⟩
  · simp [cloud, CloudConfig.write, enc, encMap, treeOf, Maps.len]
  · have hk : ∀ p ∈ cloud.fields, p.1.length + 5 < 2147483648 := by decide +kernel
    simp only [List.forall_mem_cons, Fits, S] at *
    simp only [cloud, List.forall_mem_cons] at hk
    exact ⟨⟨hk.1, h1⟩, ⟨hk.2.1, h2⟩, ⟨hk.2.2.1, h3⟩, ⟨hk.2.2.2.1, h4⟩, ⟨hk.2.2.2.2.1, h5⟩,
      ⟨hk.2.2.2.2.2.1, trivial⟩, by simp⟩

theorem C48_tier_round_trip : WriteRead tier := by
  intro a rest hf
  obtain ⟨h1, h2, h3, h4, h5⟩ := hf
  refine writeRead_of tier_table TierConfig.allocate (fun _ => rfl) (fun _ => rfl) ?_ a
    [(cstr "name", .str a.name), (cstr "partitions", .int a.partitions), (cstr "size", .int a.size),
     (cstr "events", .int a.events), (cstr "duration", .int a.duration)]
    rfl ?_ ?_ (by simp) ?_ rest
  · intro a a' h
    cases a; cases a'
    simp only [tier, List.cons.injEq, FV.string.injEq, FV.int.injEq] at h
    simp [h]
  · exact ⟨rfl, rfl, rfl, rfl, rfl, trivial⟩
  · simp [tier, TierConfig.write, enc, encMap, treeOf, Maps.len]
  · have hk : ∀ p ∈ tier.fields, p.1.length + 5 < 2147483648 := by decide +kernel
    simp only [List.forall_mem_cons, Fits, S, I] at *
    simp only [tier, List.forall_mem_cons] at hk
    exact ⟨⟨hk.1, h1⟩, ⟨hk.2.1, h2⟩, ⟨hk.2.2.1, h3⟩, ⟨hk.2.2.2.1, h4⟩, ⟨hk.2.2.2.2.1, h5⟩, by simp⟩

/-- C48 in full: storages, clouds and tiers. -/
theorem C48_decoding : Full :=
  ⟨⟨C48_source_checks, C48_source_round_trip⟩, ⟨C48_cloud_checks, C48_cloud_round_trip⟩,
    ⟨C48_tier_checks, C48_tier_round_trip⟩⟩

/-- A complete and a broken map. -/
example : ∃ l, Good tier.fields l ∧ unknown tier.fields l = [txt "x"] ∧ Fits (fun _ => True) (.map l) :=
  ⟨.cons (txt "size") (.int 5) (.cons (txt "x") .null (.cons (txt "name") (.str [97])
    (.cons (txt "partitions") (.int (-1)) (.cons (txt "size") (.int 7) (.cons (txt "events") (.int 1)
    (.cons (txt "duration") (.int 0) .nil)))))), by
    refine ⟨⟨?_, ?_⟩, by decide +kernel, ?_⟩
    · have hm' : ∀ p ∈ tier.fields, (p.2 = .int ∨ p.1 = txt "name") ∧ (p.1 = txt "name" → p.2 = .string) := by
        decide +kernel
      have hm : ∀ n ty, (n, ty) ∈ tier.fields → ty = .int ∨ n = txt "name" := fun n ty h => (hm' _ h).1
      have h2 : ∀ n, n ≠ txt "name" → ∀ i ty, (n, ty) ∈ tier.fields → ty.Accepts (.int i) := by
        intro n hn i ty h
        rcases hm n ty h with rfl | h
        · exact ⟨i, rfl⟩
        · exact absurd h hn
      refine ⟨h2 _ (by decide +kernel) _, ?_, ?_, h2 _ (by decide +kernel) _, h2 _ (by decide +kernel) _,
        h2 _ (by decide +kernel) _, h2 _ (by decide +kernel) _, trivial⟩
      · intro ty h
        exact absurd (List.mem_map.2 ⟨_, h, rfl⟩ : txt "x" ∈ tier.fields.map (·.1)) (by decide +kernel)
      · intro ty h
        have : ty = .string := (hm' _ h).2 rfl
        subst this
        exact ⟨_, rfl⟩
    · intro n ty h
      have : n ∈ tier.fields.map (·.1) := List.mem_map.2 ⟨_, h, rfl⟩
      clear h
      revert n
      have hn : ∀ n ∈ tier.fields.map (·.1), (last n (.cons (txt "size") (.int 5) (.cons (txt "x") .null
          (.cons (txt "name") (.str [97]) (.cons (txt "partitions") (.int (-1)) (.cons (txt "size") (.int 7)
          (.cons (txt "events") (.int 1) (.cons (txt "duration") (.int 0) .nil)))))))).isSome = true := by
        decide +kernel
      intro n h he
      have := hn n h
      rw [he] at this
      cases this
    · simp only [Fits, FitsMap, Maps.len]
      decide +kernel⟩

example : ¬ Good tier.fields .nil := fun h => h.2 (txt "name") .string (by decide +kernel) rfl

end Verif.C48
