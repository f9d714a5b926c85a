import Verif.Proofs.C83Parse
import Verif.Proofs.Config
import Verif.Props.C48

/-! C83: lists of objects in variables. -/
namespace Verif.C83
open Data C34 C35 Decode Reopen

/-- How objects are kept in a variable. -/
structure Kept (α : Type) where
  val : α → C34.Val
  write : α → Bytes
  read : Bytes → Res (α × List Bytes × Bytes)
  ok : α → Prop
  encodes : ∀ a, Encodes (val a) (write a)
  reads : ∀ a, ok a → ∀ bs rest, Encodes (val a) bs → read (bs ++ rest) = .ok (a, [], rest)
  plain : ∀ a, ok a → C35.Plain (val a)
  fits : ∀ a, ok a → Fits (fun _ => True) (val a)
  depth : ∀ a, depth (val a) ≤ 2

def cloudTree (a : CloudConfig) : List (Bytes × C34.Val) :=
  [(cstr "name", .str a.name), (cstr "type", .str a.type), (cstr "login", .str a.login),
   (cstr "password", .str a.password), (cstr "url", .str a.url), (cstr "debug", .bool a.debug)]

def sourceTree (a : Source) : List (Bytes × C34.Val) :=
  [(cstr "uuid", .str (a.uuid.text.map UInt8.ofNat)), (cstr "name", .str a.name),
   (cstr "path", .str a.path), (cstr "cloud", .str a.cloud),
   (cstr "cloud_drop_local", .bool a.cloud_drop_local), (cstr "sync", .bool a.sync),
   (cstr "crc", .bool a.crc), (cstr "refresh_wm", .int a.refresh_wm),
   (cstr "region_size", .int a.region_size), (cstr "compression", .str a.compression),
   (cstr "compression_level", .int a.compression_level), (cstr "encryption", .str a.encryption),
   (cstr "encryption_key", .str a.encryption_key)]

def tierTree (a : TierConfig) : List (Bytes × C34.Val) :=
  [(cstr "name", .str a.name), (cstr "partitions", .int a.partitions), (cstr "size", .int a.size),
   (cstr "events", .int a.events), (cstr "duration", .int a.duration)]

structure CloudOk (a : CloudConfig) : Prop where
  name : Sound a.name
  type : Sound a.type
  login : Sound a.login
  password : Sound a.password
  url : Sound a.url

/-- A 32-bit integer. -/
def I32 (i : Int) : Prop := -2147483648 ≤ i ∧ i < 2147483648

structure SourceOk (a : Source) : Prop where
  uuid : C45.Legal a.uuid
  name : Sound a.name
  path : Sound a.path
  cloud : Sound a.cloud
  refresh : I32 a.refresh_wm
  region : I32 a.region_size
  compression : Sound a.compression
  level : I32 a.compression_level
  encryption : Sound a.encryption
  key : Sound a.encryption_key

structure TierOk (a : TierConfig) : Prop where
  name : Sound a.name
  partitions : SmallInt a.partitions
  size : SmallInt a.size
  events : SmallInt a.events
  duration : SmallInt a.duration

theorem small_of_i32 {i : Int} (h : I32 i) : SmallInt i := by unfold I32 at h; unfold SmallInt; omega

theorem fits_small {i : Int} (h : SmallInt i) : Fits (fun _ => True) (.int i) := by
  unfold SmallInt at h; simp only [Fits]; omega

theorem delimited_uuid (u : Uuid) : Delimited (u.text.map UInt8.ofNat) := by
  apply delimited_plain
  intro b hb
  obtain ⟨c, hc, rfl⟩ := List.mem_map.1 hb
  have h1 := C48.text_byte u c hc
  have h2 : c ≠ 92 ∧ c ≠ 34 := by
    have h1 : ∀ d, d < 16 → Uuid.hexChar d ≠ 92 ∧ Uuid.hexChar d ≠ 34 := by
      intro d hd; unfold Uuid.hexChar; split <;> omega
    have h2 : ∀ w n, ∀ c ∈ Uuid.hexPad w n, c ≠ 92 ∧ c ≠ 34 := by
      intro w n
      induction w with
      | zero => simp [Uuid.hexPad]
      | succ w ih =>
        intro c hc
        rcases List.mem_cons.1 hc with h | h
        · rw [h]; exact h1 _ (Nat.mod_lt _ (by omega))
        · exact ih c h
    simp only [Uuid.text, List.mem_append, List.mem_cons] at hc
    rcases hc with h | rfl | h | rfl | h | rfl | h | rfl | h | h
    all_goals first | omega | exact h2 _ _ _ h
  exact ⟨ofNat_ne (b := 92) h1 h2.1, ofNat_ne (b := 34) h1 h2.2⟩

theorem sound_uuid (u : Uuid) : Sound (u.text.map UInt8.ofNat) := by
  refine ⟨?_, delimited_uuid u⟩
  simp [Short, C45.text_length]

/-- A flat tree can be held by the file. -/
theorem plain_tree {l : List (Bytes × C34.Val)} (hl : l.length < 2147483648) (h : ∀ p ∈ l, Sound p.1 ∧ C35.Plain p.2) :
    C35.Plain (.map (C48.treeOf l)) := by
  refine ⟨by rw [C48.treeOf_len]; exact hl, ?_⟩
  clear hl
  induction l with
  | nil => trivial
  | cons x l ih =>
    have hx := h x (List.mem_cons_self ..)
    exact ⟨hx.1, hx.2, ih fun p hp => h p (List.mem_cons_of_mem _ hp)⟩

theorem depth_tree {l : List (Bytes × C34.Val)} (h : ∀ p ∈ l, depth p.2 ≤ 1) : depth (.map (C48.treeOf l)) ≤ 2 := by
  have : depthMap (C48.treeOf l) ≤ 1 := by
    induction l with
    | nil => simp [C48.treeOf, depthMap]
    | cons x l ih =>
      have h1 := h x (List.mem_cons_self ..)
      have h2 := ih fun p hp => h p (List.mem_cons_of_mem _ hp)
      simp only [C48.treeOf, depthMap]; omega
  simp only [depth]; omega

theorem cloud_keys (a : CloudConfig) : ∀ p ∈ cloudTree a, Sound p.1 := by
  have : ∀ k ∈ (cloudTree a).map (·.1), k.length + 5 < 2147483648 ∧ C35.delimited false k = true := by
    simp only [cloudTree, List.map_cons, List.map_nil]
    decide +kernel
  exact fun p hp => this _ (List.mem_map_of_mem hp)

theorem source_keys (a : Source) : ∀ p ∈ sourceTree a, Sound p.1 := by
  have : ∀ k ∈ (sourceTree a).map (·.1), k.length + 5 < 2147483648 ∧ C35.delimited false k = true := by
    simp only [sourceTree, List.map_cons, List.map_nil]
    decide +kernel
  exact fun p hp => this _ (List.mem_map_of_mem hp)

theorem tier_keys (a : TierConfig) : ∀ p ∈ tierTree a, Sound p.1 := by
  have : ∀ k ∈ (tierTree a).map (·.1), k.length + 5 < 2147483648 ∧ C35.delimited false k = true := by
    simp only [tierTree, List.map_cons, List.map_nil]
    decide +kernel
  exact fun p hp => this _ (List.mem_map_of_mem hp)

theorem cloud_values {a : CloudConfig} (h : CloudOk a) : ∀ p ∈ cloudTree a, C35.Plain p.2 ∧ Fits (fun _ => True) p.2 := by
  simp only [cloudTree, List.forall_mem_cons]
  exact ⟨⟨h.name, h.name.1⟩, ⟨h.type, h.type.1⟩, ⟨h.login, h.login.1⟩, ⟨h.password, h.password.1⟩, ⟨h.url, h.url.1⟩,
    ⟨trivial, trivial⟩, by simp⟩

theorem int_values {i : Int} (h : SmallInt i) : C35.Plain (.int i) ∧ Fits (fun _ => True) (.int i) := ⟨h, fits_small h⟩

theorem source_values {a : Source} (h : SourceOk a) : ∀ p ∈ sourceTree a, C35.Plain p.2 ∧ Fits (fun _ => True) p.2 := by
  simp only [sourceTree, List.forall_mem_cons]
  have hu := sound_uuid a.uuid
  exact ⟨⟨hu, hu.1⟩, ⟨h.name, h.name.1⟩, ⟨h.path, h.path.1⟩, ⟨h.cloud, h.cloud.1⟩, ⟨trivial, trivial⟩, ⟨trivial, trivial⟩,
    ⟨trivial, trivial⟩, int_values (small_of_i32 h.refresh), int_values (small_of_i32 h.region),
    ⟨h.compression, h.compression.1⟩, int_values (small_of_i32 h.level), ⟨h.encryption, h.encryption.1⟩, ⟨h.key, h.key.1⟩, by simp⟩

theorem tier_values {a : TierConfig} (h : TierOk a) : ∀ p ∈ tierTree a, C35.Plain p.2 ∧ Fits (fun _ => True) p.2 := by
  simp only [tierTree, List.forall_mem_cons]
  exact ⟨⟨h.name, h.name.1⟩, int_values h.partitions, int_values h.size, int_values h.events, int_values h.duration, by simp⟩

def clouds : Kept CloudConfig where
  val a := .map (C48.treeOf (cloudTree a))
  write := CloudConfig.write
  read := CloudConfig.read
  ok := CloudOk
  encodes a := by
    have : a.write = enc (.map (C48.treeOf (cloudTree a))) := by
      simp [CloudConfig.write, cloudTree, enc, encMap, C48.treeOf, Maps.len]
    rw [this]
    exact encodes_enc _
  reads a h bs rest he := by
    refine C48.read_of C48.cloud_table CloudConfig.allocate (fun _ => rfl) (fun _ => rfl) ?_ a (cloudTree a) rfl ?_ (by simp [cloudTree])
      (fun p hp => ⟨(cloud_keys a p hp).1, (cloud_values h p hp).2⟩) bs rest he
    · intro a a' h
      cases a; cases a'
      simp only [C48.cloud, List.cons.injEq, C48.FV.string.injEq, C48.FV.bool.injEq] at h
      simp [h]
    · exact ⟨rfl, rfl, rfl, rfl, rfl, rfl, trivial⟩
  plain a h := plain_tree (by simp [cloudTree]) fun p hp => ⟨cloud_keys a p hp, (cloud_values h p hp).1⟩
  fits a h := ⟨by rw [C48.treeOf_len]; simp [cloudTree], C48.fits_treeOf fun p hp => ⟨(cloud_keys a p hp).1, (cloud_values h p hp).2⟩⟩
  depth a := depth_tree (by simp [cloudTree, C35.depth])

def sources : Kept Source where
  val a := .map (C48.treeOf (sourceTree a))
  write := Source.write
  read := Source.read
  ok := SourceOk
  encodes a := by
    have : a.write = enc (.map (C48.treeOf (sourceTree a))) := by
      simp [Source.write, sourceTree, enc, encMap, C48.treeOf, Maps.len]
    rw [this]
    exact encodes_enc _
  reads a h bs rest he := by
    refine C48.read_of C48.source_table Source.allocate (fun _ => rfl) (fun _ => rfl) ?_ a (sourceTree a) rfl ?_ (by simp [sourceTree])
      (fun p hp => ⟨(source_keys a p hp).1, (source_values h p hp).2⟩) bs rest he
    · intro a a' h
      cases a; cases a'
      simp only [C48.source, List.cons.injEq, C48.FV.uuid.injEq, C48.FV.string.injEq, C48.FV.int.injEq, C48.FV.bool.injEq] at h
      simp [h]
    · exact ⟨⟨_, rfl, C48.uuidText_text a.uuid h.uuid⟩, rfl, rfl, rfl, rfl, rfl, rfl, rfl, rfl, rfl, rfl, rfl, rfl, trivial⟩
  plain a h := plain_tree (by simp [sourceTree]) fun p hp => ⟨source_keys a p hp, (source_values h p hp).1⟩
  fits a h := ⟨by rw [C48.treeOf_len]; simp [sourceTree], C48.fits_treeOf fun p hp => ⟨(source_keys a p hp).1, (source_values h p hp).2⟩⟩
  depth a := depth_tree (by simp [sourceTree, C35.depth])

def tiers : Kept TierConfig where
  val a := .map (C48.treeOf (tierTree a))
  write := TierConfig.write
  read := TierConfig.read
  ok := TierOk
  encodes a := by
    have : a.write = enc (.map (C48.treeOf (tierTree a))) := by
      simp [TierConfig.write, tierTree, enc, encMap, C48.treeOf, Maps.len]
    rw [this]
    exact encodes_enc _
  reads a h bs rest he := by
    refine C48.read_of C48.tier_table TierConfig.allocate (fun _ => rfl) (fun _ => rfl) ?_ a (tierTree a) rfl ?_ (by simp [tierTree])
      (fun p hp => ⟨(tier_keys a p hp).1, (tier_values h p hp).2⟩) bs rest he
    · intro a a' h
      cases a; cases a'
      simp only [C48.tier, List.cons.injEq, C48.FV.string.injEq, C48.FV.int.injEq] at h
      simp [h]
    · exact ⟨rfl, rfl, rfl, rfl, rfl, trivial⟩
  plain a h := plain_tree (by simp [tierTree]) fun p hp => ⟨tier_keys a p hp, (tier_values h p hp).1⟩
  fits a h := ⟨by rw [C48.treeOf_len]; simp [tierTree], C48.fits_treeOf fun p hp => ⟨(tier_keys a p hp).1, (tier_values h p hp).2⟩⟩
  depth a := depth_tree (by simp [tierTree, C35.depth])

/-! ### Lists -/

/-- A list of values. -/
def vals : List C34.Val → Vals
  | [] => .nil
  | v :: l => .cons v (vals l)

theorem vals_len (l : List C34.Val) : (vals l).len = l.length := by
  induction l with
  | nil => rfl
  | cons v l ih => simp [vals, Vals.len, ih]

variable {α : Type}

/-- The value stands for the list of objects. -/
def Shape (K : Kept α) (l : List α) (x : C34.Val) : Prop := x = .arr (vals (l.map K.val)) ∨ (x = .null ∧ l = [])

theorem shape_facts {K : Kept α} {l : List α} {x : C34.Val} (h : Shape K l x) (hl : l.length < 2147483648) (hok : ∀ a ∈ l, K.ok a) :
    Fits (fun _ => True) x ∧ C35.Plain x ∧ depth x ≤ 3 := by
  rcases h with rfl | ⟨rfl, rfl⟩
  · have hlen : (vals (l.map K.val)).len < 2147483648 := by rw [vals_len, List.length_map]; exact hl
    have h2 : FitsAll (fun _ => True) (vals (l.map K.val)) ∧ PlainAll (vals (l.map K.val)) ∧ depthAll (vals (l.map K.val)) ≤ 2 := by
      clear hl hlen
      induction l with
      | nil => exact ⟨trivial, trivial, by simp [vals, depthAll]⟩
      | cons a l ih =>
        obtain ⟨i1, i2, i3⟩ := ih fun b hb => hok b (List.mem_cons_of_mem _ hb)
        have ha := hok a (List.mem_cons_self ..)
        have hd := K.depth a
        refine ⟨⟨K.fits a ha, i1⟩, ⟨K.plain a ha, i2⟩, ?_⟩
        simp only [List.map_cons, vals, depthAll]; omega
    exact ⟨⟨hlen, h2.1⟩, ⟨hlen, h2.2.1⟩, by simp only [depth]; omega⟩
  · exact ⟨trivial, trivial, by simp [depth]⟩

theorem encodes_list (K : Kept α) (l : List α) :
    Encodes (.arr (vals (l.map K.val))) (data_write_array l.length ++ l.flatMap K.write) := by
  refine ⟨_, _, Or.inl rfl, ?_, by rw [vals_len, List.length_map]⟩
  induction l with
  | nil => rfl
  | cons a l ih => exact ⟨_, _, K.encodes a, ih, by simp⟩

theorem loop_list {β : Type} (K : Kept α) (make : α → Res β) (g : α → β) : ∀ (l : List α) (bs : Bytes),
    (∀ a ∈ l, K.ok a) → (∀ a ∈ l, make a = .ok (g a)) → EncodesAll (vals (l.map K.val)) bs →
    open_loop K.read make l.length bs = .ok (l.map g)
  | [], bs, _, _, _ => rfl
  | a :: l, bs, hok, hm, he => by
    obtain ⟨b1, b2, h1, h2, rfl⟩ := he
    have h3 := K.reads a (hok a (List.mem_cons_self ..)) b1 b2 h1
    have ih := loop_list K make g l b2 (fun a ha => hok a (List.mem_cons_of_mem _ ha)) (fun a ha => hm a (List.mem_cons_of_mem _ ha)) h2
    simp only [List.length_cons, open_loop, h3, Res.bind_ok, hm a (List.mem_cons_self ..), ih, List.map_cons]

theorem open_list_ok {β : Type} (K : Kept α) (make : α → Res β) (g : α → β) {cfg : List Config.Var} {name : Bytes} {v : Config.Var}
    {l : List α} {x : C34.Val} (hf : Config.find cfg name = some v) (hs : Shape K l x) (hh : Holds x v.str)
    (hl : l.length < 2147483648) (hok : ∀ a ∈ l, K.ok a) (hm : ∀ a ∈ l, make a = .ok (g a)) :
    open_list K.read make cfg name = .ok (l.map g) := by
  unfold open_list
  rw [hf]
  dsimp only
  rcases hs with rfl | ⟨rfl, rfl⟩
  · rcases hh with ⟨_, h⟩ | ⟨h, b, h1, h2, h3⟩
    · cases h
    · have hlen : (vals (l.map K.val)).len = l.length := by rw [vals_len, List.length_map]
      rw [hlen] at h1
      have hread : data_read_array (h ++ b) = .ok ((l.length : Int), b) := by
        rcases h1 with rfl | rfl
        · exact read_array b hl
        · exact read_array32 b hl
      have hhead : ∃ t r, h ++ b = t :: r ∧ data_is_null t.toNat = false := by
        rcases h1 with rfl | rfl
        · obtain ⟨t, r, e, h4, h5⟩ := writeCount_head 42 l.length (by omega)
          refine ⟨t, r ++ b, by simp [data_write_array, e], ?_⟩
          simp [data_is_null]; omega
        · exact ⟨_, _, rfl, by decide⟩
      obtain ⟨t, r, e1, e2⟩ := hhead
      rw [h3]
      rw [e1] at hread ⊢
      dsimp only
      rw [if_neg (by simp [e2]), hread, Res.bind_ok]
      dsimp only
      rw [Int.toNat_natCast]
      exact loop_list K make g l b hok hm h2
  · rcases hh with ⟨h, _⟩ | h
    · rw [h]
      rfl
    · simp only [Encodes] at h
      rw [h]
      rfl

end Verif.C83
