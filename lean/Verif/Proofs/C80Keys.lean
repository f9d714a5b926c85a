import Verif.Proofs.C80

/-! C80: which settings ALTER changes; keys of encrypted storages. -/
namespace Verif.C80
open Settings Parse

/-! ### The mask is what is named -/

def bits : List (String × Nat) :=
  [("path", 2), ("cloud", 3), ("cloud_drop_local", 4), ("sync", 5), ("crc", 6), ("refresh_wm", 7), ("region_size", 8),
   ("compression", 9), ("compression_level", 10), ("encryption", 11), ("encryption_key", 12)]

theorem opt_bits {d : C58.Dialect} {c : Source} {s : List Nat} {v : C58.Item} {c' : Source} {b : Nat}
    (h : C58.StorageOpt d c s v c' b) : ∀ p ∈ bits, (b.testBit p.2 = true ↔ s = Lex.bytes p.1) := by
  cases h <;> decide +kernel

theorem truth_word {b : Bool} {v : C58.Item} (h : C58.Truth b v) : ∀ p ∈ bits, v ≠ .word (Lex.bytes p.1) := by
  have h1 : ∀ p ∈ bits, (Lex.bytes p.1).map Lex.lower ≠ Lex.bytes "true" ∧ (Lex.bytes p.1).map Lex.lower ≠ Lex.bytes "false" := by
    decide +kernel
  intro p hp e
  cases h with
  | t h =>
    obtain ⟨s, e', hs⟩ := h
    rw [e] at e'
    injection e' with e'
    exact (h1 p hp).1 (e' ▸ hs)
  | f h =>
    obtain ⟨s, e', hs⟩ := h
    rw [e] at e'
    injection e' with e'
    exact (h1 p hp).2 (e' ▸ hs)

theorem opt_value {d : C58.Dialect} {c : Source} {s : List Nat} {v : C58.Item} {c' : Source} {b : Nat}
    (h : C58.StorageOpt d c s v c' b) : ∀ p ∈ bits, v ≠ .word (Lex.bytes p.1) := by
  cases h with
  | drop_local h => exact truth_word h
  | sync h => exact truth_word h
  | crc h => exact truth_word h
  | _ => intros; simp

theorem opts_bits {d : C58.Dialect} {c : Source} {m : Nat} {l : List C58.Item} {c' : Source} {m' : Nat}
    (h : C58.Opts (C58.StorageOpt d) c m l c' m') : ∀ p ∈ bits,
    (m'.testBit p.2 = true ↔ m.testBit p.2 = true ∨ .word (Lex.bytes p.1) ∈ l) := by
  induction h with
  | last h =>
    intro p hp
    have h1 := opt_bits h p hp
    have h2 := opt_value h p hp
    rw [Nat.testBit_or, Bool.or_eq_true, h1]
    simp only [List.mem_cons, List.not_mem_nil, or_false, C58.Item.word.injEq]
    constructor
    · rintro (x | x)
      · exact Or.inl x
      · exact Or.inr (Or.inl x.symm)
    · rintro (x | x | x)
      · exact Or.inl x
      · exact Or.inr x.symm
      · exact absurd x.symm h2
  | more h _ ih =>
    intro p hp
    have h1 := opt_bits h p hp
    have h2 := opt_value h p hp
    rw [ih p hp, Nat.testBit_or, Bool.or_eq_true, h1]
    simp only [List.mem_cons, C58.Item.word.injEq, reduceCtorEq, false_or]
    constructor
    · rintro ((x | x) | x)
      · exact Or.inl x
      · exact Or.inr (Or.inl x.symm)
      · exact Or.inr (Or.inr (Or.inr x))
    · rintro (x | x | x | x)
      · exact Or.inl (Or.inl x)
      · exact Or.inl (Or.inr x.symm)
      · exact absurd x.symm h2
      · exact Or.inr x

theorem options_bits {d : C58.Dialect} {c : Source} {l : List C58.Item} {c' : Source} {m : Nat}
    (h : C58.Options (C58.StorageOpt d) c l c' m) : ∀ p ∈ bits, (m.testBit p.2 = true ↔ .word (Lex.bytes p.1) ∈ l) := by
  cases h with
  | none => intro p _; simp
  | empty => intro p _; simp
  | some h =>
    intro p hp
    rw [opts_bits h p hp]
    simp

/-- The bit of each setting decides. -/
theorem alter_settings (s c : Source) (mask : Nat) : ∀ q ∈ settings, ∃ i, (q.1, i) ∈ bits ∧
    q.2 (source_alter s c mask) = if mask.testBit i then q.2 c.copy else q.2 s := by
  intro q hq
  simp only [settings, List.mem_cons, List.not_mem_nil, or_false] at hq
  rcases hq with rfl | rfl | rfl | rfl | rfl | rfl | rfl | rfl | rfl | rfl | rfl
  · exact ⟨2, by decide, by simp only [source_alter]; split <;> rfl⟩
  · exact ⟨3, by decide, by simp only [source_alter]; split <;> rfl⟩
  · exact ⟨4, by decide, by simp only [source_alter]; split <;> rfl⟩
  · exact ⟨5, by decide, by simp only [source_alter]; split <;> rfl⟩
  · exact ⟨6, by decide, by simp only [source_alter]; split <;> rfl⟩
  · exact ⟨7, by decide, by simp only [source_alter]; split <;> rfl⟩
  · exact ⟨8, by decide, by simp only [source_alter]; split <;> rfl⟩
  · exact ⟨9, by decide, by simp only [source_alter]; split <;> rfl⟩
  · exact ⟨10, by decide, by simp only [source_alter]; split <;> rfl⟩
  · exact ⟨11, by decide, by simp only [source_alter]; split <;> rfl⟩
  · exact ⟨12, by decide, by simp only [source_alter]; split <;> rfl⟩

theorem save_storages (r : Res Unit × St) (b : Bool) : (save r b).2.storages = r.2.storages := by
  obtain ⟨x, st⟩ := r
  unfold save
  cases x with
  | ok _ => dsimp only; split <;> rfl
  | _ => rfl

/-- ALTER leaves the storages as they are, or changes the one it names. -/
theorem alter_cases (st : St) (c : Source) (mask : Nat) (b : Bool) (o : Outside) :
    (Settings.storage_alter st c mask b o).2.storages = st.storages ∧
      ((Settings.storage_alter st c mask b o).1 = .ok () → find st.storages c.name = none) ∨
    ∃ s cl, find st.storages c.name = some s ∧ (Settings.storage_alter st c mask b o).2.storages =
      change c.name (fun t => { t with source := source_alter s.source c mask, cloud := cl }) st.storages := by
  unfold Settings.storage_alter
  cases e : find st.storages c.name with
  | none => left; dsimp only; split <;> exact ⟨rfl, fun _ => rfl⟩
  | some s =>
    dsimp only
    by_cases g1 : (mask.testBit 6 && decide (s.parts ≠ [])) = true
    · rw [if_pos g1]; exact Or.inl ⟨rfl, nofun⟩
    rw [if_neg g1]
    by_cases g2 : (mask.testBit 2 && decide (s.parts ≠ [])) = true
    · rw [if_pos g2]; exact Or.inl ⟨rfl, nofun⟩
    rw [if_neg g2]
    by_cases g3 : (mask.testBit 2 && o.mkdir) = true
    · rw [if_pos g3]; exact Or.inl ⟨rfl, nofun⟩
    rw [if_neg g3]
    by_cases g4 : ((mask.testBit 11 || mask.testBit 12) && decide (s.parts ≠ [])) = true
    · rw [if_pos g4]; exact Or.inl ⟨rfl, nofun⟩
    rw [if_neg g4]
    by_cases g5 : (mask.testBit 3 && o.onCloud) = true
    · rw [if_pos g5]; exact Or.inl ⟨rfl, nofun⟩
    rw [if_neg g5]
    by_cases g6 : (mask.testBit 3 && s.cloud.isSome && o.detach) = true
    · rw [if_pos g6]; exact Or.inl ⟨rfl, nofun⟩
    rw [if_neg g6]
    right
    by_cases g : mask.testBit 3 = true
    · rw [if_neg (by simpa using g)]
      rcases set_cloud_cases st.clouds (source_alter s.source c mask) o.attach with ⟨x, x'⟩ | ⟨x, x1, _, x'⟩ | ⟨x, x1, m, x'⟩
      · rw [x']; exact ⟨s, _, rfl, rfl⟩
      · rw [x']; exact ⟨s, _, rfl, rfl⟩
      · rw [x']; exact ⟨s, _, rfl, rfl⟩
    · rw [if_pos (by simpa using g)]
      refine ⟨s, s.cloud, rfl, ?_⟩
      obtain ⟨_, pre, post, _, e2, _, _⟩ := find_split e
      show change _ _ _ = _
      rw [e2, e2]

/-! ### Keys -/

theorem keyed_write {c : Source} (h : Keyed c) : ∃ k, write_key c = .ok k := by
  unfold write_key
  by_cases hz : encryptionOf c.encryption = 0
  · exact ⟨none, by rw [if_pos hz]⟩
  · rw [if_neg hz]
    rcases h with h | h | h
    · exact absurd (by rw [h]; simp [encryptionOf]) hz
    · exact absurd (by rw [h]; simp [encryptionOf]) hz
    · exact ⟨some c.encryption_key, by rw [if_neg (by simp [h])]⟩

theorem opts_key {d : C58.Dialect} {c : Source} {m : Nat} {l : List C58.Item} {c' : Source} {m' : Nat}
    (h : C58.Opts (C58.StorageOpt d) c m l c' m') (hk : c.encryption_key = [] ∨ c.encryption_key.length = 32) :
    c'.encryption_key = [] ∨ c'.encryption_key.length = 32 := by
  have one : ∀ {c : Source} {s : List Nat} {v : C58.Item} {c' : Source} {b : Nat}, C58.StorageOpt d c s v c' b →
      (c.encryption_key = [] ∨ c.encryption_key.length = 32) → c'.encryption_key = [] ∨ c'.encryption_key.length = 32 := by
    intro c s v c' b h hk
    cases h with
    | encryption_key h =>
      rcases h with h | h
      · exact Or.inl (by simp [str, h])
      · exact Or.inr (by simp [str, h])
    | _ => exact hk
  induction h with
  | last h => exact one h hk
  | more h _ ih => exact ih (one h hk)

theorem parse_create {env : Env} {text : List Nat} {b : Bool} {c : Source} (h : parse env text = .ok (.storageCreate b c))
    (hk : env.key.length = 32) : Keyed c := by
  obtain ⟨items, _, hs⟩ := C58.parse_code.1 h
  cases hs with
  | @storageCreate _ _ _ _ s _ l' cfg m _ _ _ _ ho =>
    have hk' : cfg.encryption_key = [] ∨ cfg.encryption_key.length = 32 := by
      cases ho with
      | none => exact Or.inl rfl
      | empty => exact Or.inl rfl
      | some h => exact opts_key h (Or.inl rfl)
    unfold C58.withKey
    by_cases g : cfg.encryption_key = [] ∧ cfg.encryption ≠ [] ∧ cfg.encryption ≠ str (Lex.bytes "none")
    · rw [if_pos g]; exact Or.inr (Or.inr hk)
    · rw [if_neg g]
      by_cases e1 : cfg.encryption = []
      · exact Or.inl e1
      · by_cases e2 : cfg.encryption = str (Lex.bytes "none")
        · exact Or.inr (Or.inl e2)
        · exact Or.inr (Or.inr (hk'.resolve_left fun x => g ⟨x, e1, e2⟩))

/-- All storages are keyed, in memory and in the configuration file. -/
def KInv (st : St) : Prop := (∀ s ∈ st.storages, Keyed s.source) ∧ ∀ c ∈ st.conf.sources, Keyed c

theorem main_keyed (u : Uuid) : Keyed (main u) := Or.inl rfl

theorem mem_change {n : Bytes} {g : Storage → Storage} {l : List Storage} {s : Storage} (h : s ∈ change n g l) :
    s ∈ l ∨ ∃ t ∈ l, t.source.name = n ∧ s = g t := by
  induction l with
  | nil => cases h
  | cons x l ih =>
    by_cases e : x.source.name = n
    · simp only [change, e, if_true, List.mem_cons] at h
      rcases h with h | h
      · exact Or.inr ⟨x, by simp, e, h⟩
      · exact Or.inl (by simp [h])
    · simp only [change, e, if_false, List.mem_cons] at h
      rcases h with h | h
      · exact Or.inl (by simp [h])
      · rcases ih h with h | ⟨t, ht, h⟩
        · exact Or.inl (by simp [h])
        · exact Or.inr ⟨t, by simp [ht], h⟩

theorem mem_unlink {n : Bytes} {l : List Storage} {s : Storage} (h : s ∈ unlink n l) : s ∈ l := by
  induction l with
  | nil => cases h
  | cons x l ih =>
    by_cases e : x.source.name = n
    · simp only [unlink, e, if_true] at h; simp [h]
    · simp only [unlink, e, if_false, List.mem_cons] at h
      rcases h with h | h
      · simp [h]
      · simp [ih h]

theorem save_keys {r : Res Unit × St} (h : KInv r.2) (b : Bool) : KInv (save r b).2 := by
  obtain ⟨x, st⟩ := r
  unfold save
  cases x with
  | ok _ =>
    dsimp only
    split
    · exact h
    · refine ⟨h.1, ?_⟩
      intro c hc
      obtain ⟨s, hs, rfl⟩ := List.mem_map.1 hc
      exact h.1 s hs
  | _ => exact h

theorem command_keys {st : St} (h : KInv st) {env : Env} {text : List Nat} {cmd : Cmd} (hp : parse env text = .ok cmd) (o : Outside)
    (hk : Keys st (.execute env text o)) : KInv (Settings.command st cmd o).2 := by
  have mem : ∀ (cs : List Bytes) (l : List Storage), (∀ s ∈ l, Keyed s.source) → KInv { st with clouds := cs, storages := l } :=
    fun _ _ hl => ⟨hl, h.2⟩
  cases cmd with
  | cloudCreate b c =>
    refine save_keys ?_ _
    unfold Settings.cloud_create
    split
    · split <;> exact h
    · split
      · exact h
      · exact mem _ _ h.1
  | cloudDrop b n =>
    refine save_keys ?_ _
    unfold Settings.cloud_drop
    split
    · split <;> exact h
    · split
      · exact h
      · exact mem _ _ h.1
  | cloudRename b n m =>
    refine save_keys ?_ _
    have one : ∀ s : Storage, Keyed s.source →
        Keyed (if s.source.cloud = str n then ({ s with source := { s.source with cloud := str m } } : Storage) else s).source := by
      intro s hs
      split <;> exact hs
    unfold Settings.cloud_rename
    dsimp only
    split
    · split
      · refine mem st.clouds _ ?_
        intro s hs
        obtain ⟨t, ht, rfl⟩ := List.mem_map.1 hs
        exact one t (h.1 t ht)
      · exact h
    · split
      · exact h
      · refine mem _ _ ?_
        intro s hs
        obtain ⟨t, ht, rfl⟩ := List.mem_map.1 hs
        obtain ⟨u, hu, rfl⟩ := List.mem_map.1 ht
        refine one _ ?_
        split <;> exact h.1 u hu
  | cloudAlter b n c m =>
    refine save_keys ?_ _
    split <;> exact h
  | storageCreate b c =>
    refine save_keys ?_ _
    have hc : Keyed c := parse_create hp hk.1
    unfold Settings.storage_create
    split
    · split <;> exact h
    · split
      · exact h
      · split
        · refine mem st.clouds _ ?_
          intro s hs
          rcases List.mem_append.1 hs with hs | hs
          · exact h.1 s hs
          · rw [List.mem_singleton.1 hs]; exact hc
        · exact h
        · exact h
        · exact h
  | storageDrop b n =>
    refine save_keys ?_ _
    unfold Settings.storage_drop
    split
    · exact h
    · split
      · split <;> exact h
      · split
        · exact h
        · split
          · exact h
          · split
            · exact h
            · exact mem st.clouds _ fun s hs => h.1 s (mem_unlink hs)
  | storageRename b n m =>
    refine save_keys ?_ _
    unfold Settings.storage_rename
    split
    · exact h
    · split
      · split <;> exact h
      · split
        · exact h
        · refine mem st.clouds _ ?_
          intro s hs
          rcases mem_change hs with hs | ⟨t, ht, _, rfl⟩
          · exact h.1 s hs
          · exact h.1 t ht
  | storageAlter b n c mask =>
    refine save_keys ?_ _
    have hconf : (Settings.storage_alter st c mask b o).2.conf = st.conf := by
      unfold Settings.storage_alter
      split
      · split <;> rfl
      · dsimp only
        repeat' split
        all_goals rfl
    refine ⟨?_, by rw [hconf]; exact h.2⟩
    rcases alter_cases st c mask b o with ⟨e, _⟩ | ⟨s, cl, hf, e⟩
    · rw [e]; exact h.1
    · rw [e]
      intro t ht
      rcases mem_change ht with ht | ⟨u, _, _, rfl⟩
      · exact h.1 t ht
      · exact hk.2 b n c mask hp s (find_mem hf) (find_split hf).1
  | _ => exact h

theorem recover_mem {clouds : List Bytes} {disk : List File} : ∀ {l : List Source} {r : List Storage},
    recover_all clouds disk l = .ok r → ∀ s ∈ r, ∃ c ∈ l, s.source = c.copy
  | [], r, h, s, hs => by
    simp only [recover_all, Res.ok.injEq] at h
    subst h
    cases hs
  | c :: l, r, h, s, hs => by
    obtain ⟨t, h1, h2⟩ := Res.bind_eq_ok.1 h
    obtain ⟨r', h3, h4⟩ := Res.bind_eq_ok.1 h2
    injection h4 with h4
    subst h4
    rcases List.mem_cons.1 hs with rfl | hs
    · have : s.source = c.copy := by
        unfold recover at h1
        split at h1
        · split at h1
          · injection h1 with h1; rw [← h1]
          · cases h1
        all_goals cases h1
      exact ⟨c, by simp, this⟩
    · obtain ⟨c, hc, e⟩ := recover_mem h3 s hs
      exact ⟨c, List.mem_cons_of_mem _ hc, e⟩

theorem sources_keys {u : Uuid} {l : List Source} (h : ∀ c ∈ l, Keyed c) : ∀ c ∈ sources u l, Keyed c := by
  unfold sources
  split
  · exact h
  · intro c hc
    rcases List.mem_append.1 hc with hc | hc
    · exact h c hc
    · rw [List.mem_singleton.1 hc]; exact main_keyed u

theorem step_keys {st : St} (h : KInv st) (op : Op) (hk : Keys st op) : KInv (step st op) := by
  cases op with
  | execute env text o =>
    unfold step Settings.execute
    dsimp only
    cases e : parse env text with
    | ok cmd => exact command_keys h e o hk
    | _ => exact h
  | create n m =>
    unfold step Settings.create
    dsimp only
    split
    · exact h
    · refine ⟨?_, h.2⟩
      intro s hs
      rcases mem_change hs with hs | ⟨t, ht, _, rfl⟩
      · exact h.1 s hs
      · exact h.1 t ht
  | refresh m t =>
    unfold step Settings.refresh
    dsimp only
    split
    · exact h
    · split
      · exact h
      · split
        · exact h
        · split
          · exact h
          · exact h
          · exact h
          · refine ⟨?_, h.2⟩
            have hl : ∀ s ∈ st.storages.map fun s => { s with parts := s.parts.filter (· ≠ m) }, Keyed s.source := by
              intro s hs
              obtain ⟨t, ht, rfl⟩ := List.mem_map.1 hs
              exact h.1 t ht
            intro s hs
            rcases mem_change hs with hs | ⟨t, ht, _, rfl⟩
            · exact hl s hs
            · exact hl t ht
  | drop m =>
    unfold step Settings.drop
    dsimp only
    split
    · exact h
    · refine ⟨?_, h.2⟩
      intro s hs
      obtain ⟨t, ht, rfl⟩ := List.mem_map.1 hs
      exact h.1 t ht
  | restart =>
    unfold step
    dsimp only
    cases e : restart st with
    | ok st' =>
      unfold restart at e
      obtain ⟨l, h1, h2⟩ := Res.bind_eq_ok.1 e
      injection h2 with h2
      subst h2
      refine ⟨fun s hs => ?_, h.2⟩
      obtain ⟨c, hc, e⟩ := recover_mem h1 s hs
      show Keyed s.source
      rw [e]
      exact sources_keys h.2 c hc
    | _ => exact h

theorem run_keys : ∀ {st : St} (_ : KInv st) (ops : List Op) (_ : Keysly st ops), KInv (run st ops)
  | _, h, [], _ => h
  | _, h, op :: ops, hk => run_keys (step_keys h op hk.1) ops hk.2

theorem start_keys (u : Uuid) : KInv (start u) := by
  refine ⟨?_, by simp [start]⟩
  intro s hs
  simp only [start, List.mem_singleton] at hs
  subst hs
  exact main_keyed u

theorem keys_writable {st : St} (h : KInv st) : Writable st := by
  have key : ∀ m t, (∃ s ∈ st.storages, m ∈ s.parts) → (∀ n, t = some n → ∃ u ∈ st.storages, u.source.name = n) →
      (Settings.refresh st m t).1 = .ok () := by
    intro m t ⟨s, hs, hm⟩ ht
    unfold Settings.refresh
    cases e : st.storages.find? fun s => s.parts.contains m with
    | none => exact absurd (List.find?_eq_none.1 e s hs) (by simpa using hm)
    | some origin =>
      dsimp only
      have ho := List.mem_of_find?_eq_some e
      cases t with
      | none =>
        obtain ⟨g, hg, hgm⟩ := find_self ho
        obtain ⟨k, hk⟩ := keyed_write (h.1 g hgm)
        dsimp only
        rw [hg]
        dsimp only
        split
        · rfl
        · rw [hk]
      | some n =>
        obtain ⟨u, hu, rfl⟩ := ht n rfl
        obtain ⟨g, hg, hgm⟩ := find_self hu
        obtain ⟨k, hk⟩ := keyed_write (h.1 g hgm)
        dsimp only
        rw [hg]
        dsimp only
        split
        · rfl
        · rw [hk]
  exact ⟨fun s hs m hm => key m none ⟨s, hs, hm⟩ nofun,
    fun s hs t ht m hm => key m _ ⟨s, hs, hm⟩ fun n hn => ⟨t, ht, by injection hn⟩⟩

end Verif.C80
