import Verif.Proofs.ParseSound

/-! C58: a command that is taken is one the grammar of the code allows. -/
namespace Verif.C58
open Lex Parse

theorem wrapU64_nat (n : Nat) : wrapU64 ((n : Nat) : Int) = n % 18446744073709551616 := by
  unfold wrapU64
  omega

/-- The encryption of a storage is a known one, whatever the options. -/
theorem opts_encryption {c c' : Source} {m m' : Nat} {pre : List Item} (h : Opts (StorageOpt code) c m pre c' m')
    (hc : c.encryption = [] ∨ c.encryption = str (bytes "none") ∨ c.encryption = str (bytes "aes")) :
    c'.encryption = [] ∨ c'.encryption = str (bytes "none") ∨ c'.encryption = str (bytes "aes") := by
  have one : ∀ c s v c' b, StorageOpt code c s v c' b →
      (c.encryption = [] ∨ c.encryption = str (bytes "none") ∨ c.encryption = str (bytes "aes")) →
      (c'.encryption = [] ∨ c'.encryption = str (bytes "none") ∨ c'.encryption = str (bytes "aes")) := by
    intro c s v c' b h hc
    cases h with
    | encryption h => exact h
    | _ => exact hc
  induction h with
  | last h => exact one _ _ _ _ _ h hc
  | more h _ ih => exact ih (one _ _ _ _ _ h hc)

theorem options_encryption {c c' : Source} {m : Nat} {pre : List Item} (h : Options (StorageOpt code) c pre c' m)
    (hc : c.encryption = [] ∨ c.encryption = str (bytes "none") ∨ c.encryption = str (bytes "aes")) :
    c'.encryption = [] ∨ c'.encryption = str (bytes "none") ∨ c'.encryption = str (bytes "aes") := by
  cases h with
  | none => exact hc
  | empty => exact hc
  | some h => exact opts_encryption h hc

theorem withKey_eq {env : Env} {c : Source}
    (hc : c.encryption = [] ∨ c.encryption = str (bytes "none") ∨ c.encryption = str (bytes "aes")) :
    withKey env c = if encryptionOf c.encryption ≠ 0 ∧ c.encryption_key = [] then { c with encryption_key := env.key } else c := by
  unfold withKey
  have h := encryptionOf_zero hc
  by_cases h1 : encryptionOf c.encryption ≠ 0 ∧ c.encryption_key = []
  · rw [if_pos h1, if_pos ⟨h1.2, h.1 h1.1⟩]
  · rw [if_neg h1, if_neg fun h2 => h1 ⟨h.2 h2.2, h2.1⟩]

section
variable {env : Env} {fuel : Nat} {l : List Item} {cmd : Cmd} {l' : List Item} {a : Item}

theorem create_sound (ha : Kw "create" a) (h : exec (finish (choice
    [("cloud", cloud_create fuel), ("storage", storage_create env fuel), ("partition", partition_create env)])) l = some (cmd, l')) :
    l' = [] ∧ Says code env cmd (a :: l) := by
  obtain ⟨n, p, b, l1, hm, rfl, hb, h1⟩ := choice_sound h
  simp only [List.mem_cons, Prod.mk.injEq, List.not_mem_nil, or_false] at hm
  rcases hm with ⟨rfl, rfl⟩ | ⟨rfl, rfl⟩ | ⟨rfl, rfl⟩
  · rw [cloud_create, finish_bind] at h1
    obtain ⟨e, pre, l2, rfl, he, h2⟩ := ine_sound h1
    rw [finish_bind] at h2
    obtain ⟨s, c, l3, rfl, hc, h3⟩ := name_sound h2
    rw [finish_bind] at h3
    obtain ⟨pre', l4, cfg, m, rfl, ho, h4⟩ := options_sound cloud_table h3
    obtain ⟨rfl, rfl, rfl⟩ := finish_ret h4
    rw [List.append_nil]
    exact ⟨rfl, .cloudCreate ha hb he hc ho⟩
  · rw [storage_create, finish_bind] at h1
    obtain ⟨e, pre, l2, rfl, he, h2⟩ := ine_sound h1
    rw [finish_bind] at h2
    obtain ⟨s, c, l3, rfl, hc, h3⟩ := name_sound h2
    dsimp only at h3
    rw [finish_bind] at h3
    obtain ⟨pre', l4, cfg, m, rfl, ho, h4⟩ := options_sound storage_table h3
    have hnew : (if env.compression = [] then { Source.allocate with name := str s, uuid := env.uuid }
        else { Source.allocate with
          name := str s
          uuid := env.uuid
          compression := env.compression
          compression_level := env.compressionLevel }) = newStorage env s := by
      unfold newStorage
      by_cases hc : env.compression = []
      · rw [if_pos hc, if_pos hc, if_pos hc]; rfl
      · rw [if_neg hc, if_neg hc, if_neg hc]
    rw [hnew] at ho
    have henc := options_encryption ho (by simp [newStorage, Source.allocate])
    have hkey : ∀ x, exec (finish (if encryptionOf cfg.encryption ≠ 0 ∧ cfg.encryption_key = [] then
        Prog.ret (Cmd.storageCreate e { cfg with encryption_key := env.key }) else Prog.ret (Cmd.storageCreate e cfg))) l4 = some x →
        exec (finish (Prog.ret (Cmd.storageCreate e (withKey env cfg)))) l4 = some x := by
      intro x hx
      rw [withKey_eq henc]
      split at hx
      · rename_i hc; rw [if_pos hc]; exact hx
      · rename_i hc; rw [if_neg hc]; exact hx
    obtain ⟨rfl, rfl, rfl⟩ := finish_ret (hkey _ h4)
    rw [List.append_nil]
    exact ⟨rfl, .storageCreate ha hb he hc ho⟩
  · rw [partition_create, finish_bind] at h1
    obtain ⟨n, l2, rfl, h2⟩ := int_sound h1
    cases l2 with
    | nil =>
      simp only [finish, Prog.bind, exec, isInt, isEof, Bool.false_eq_true, if_false, if_true, Option.some.injEq, Prod.mk.injEq] at h2
      obtain ⟨rfl, rfl⟩ := h2
      refine ⟨rfl, ?_⟩
      rw [wrapU64_nat]
      exact .create1 ha hb
    | cons c l2 =>
      by_cases hi : isInt (token c) = true
      · obtain ⟨m, rfl⟩ := (isInt_token c).1 hi
        have h3 : exec (finish (.ret (.partition { type := .create, min := n, max := m }))) l2 = some (cmd, l') := by
          simpa [finish, Prog.bind, exec, token, isInt] using h2
        obtain ⟨rfl, rfl, rfl⟩ := finish_ret h3
        exact ⟨rfl, .create ha hb⟩
      · simp [finish, Prog.bind, exec, hi, isEof_token] at h2

theorem drop_sound (ha : Kw "drop" a) (h : exec (finish (choice
    [("cloud", cloud_drop), ("storage", storage_drop), ("partition", partition_drop), ("partitions", partition_drop_range)])) l =
      some (cmd, l')) : l' = [] ∧ Says code env cmd (a :: l) := by
  obtain ⟨n, p, b, l1, hm, rfl, hb, h1⟩ := choice_sound h
  simp only [List.mem_cons, Prod.mk.injEq, List.not_mem_nil, or_false] at hm
  rcases hm with ⟨rfl, rfl⟩ | ⟨rfl, rfl⟩ | ⟨rfl, rfl⟩ | ⟨rfl, rfl⟩
  · rw [cloud_drop, finish_bind] at h1
    obtain ⟨e, pre, l2, rfl, he, h2⟩ := ie_sound h1
    rw [finish_bind] at h2
    obtain ⟨s, c, l3, rfl, hc, h3⟩ := name_sound h2
    obtain ⟨rfl, rfl, rfl⟩ := finish_ret h3
    exact ⟨rfl, .cloudDrop ha hb he hc⟩
  · rw [storage_drop, finish_bind] at h1
    obtain ⟨e, pre, l2, rfl, he, h2⟩ := ie_sound h1
    rw [finish_bind] at h2
    obtain ⟨s, c, l3, rfl, hc, h3⟩ := name_sound h2
    obtain ⟨rfl, rfl, rfl⟩ := finish_ret h3
    exact ⟨rfl, .storageDrop ha hb he hc⟩
  · rw [partition_drop, finish_bind] at h1
    obtain ⟨e, pre, l2, rfl, he, h2⟩ := ie_sound h1
    rw [finish_bind] at h2
    obtain ⟨n, l3, rfl, h3⟩ := int_sound h2
    rw [finish_bind] at h3
    obtain ⟨m, pre', l4, rfl, ho, h4⟩ := on_sound h3
    obtain ⟨rfl, rfl, rfl⟩ := finish_ret h4
    rw [List.append_nil]
    exact ⟨rfl, .drop ha hb he ho⟩
  · rw [partition_drop_range, finish_bind] at h1
    obtain ⟨min, max, pre, l2, rfl, he, h2⟩ := between_sound h1
    rw [finish_bind] at h2
    obtain ⟨m, pre', l4, rfl, ho, h4⟩ := on_sound h2
    obtain ⟨rfl, rfl, rfl⟩ := finish_ret h4
    rw [List.append_nil]
    exact ⟨rfl, .dropRange ha hb he ho⟩

theorem finish_if {c : Prop} [Decidable c] (p q : Prog Cmd) : finish (if c then p else q) = if c then finish p else finish q := by
  split <;> rfl

theorem alter_sound (ha : Kw "alter" a) (h : exec (finish (choice
    [("cloud", cloud_alter fuel), ("storage", storage_alter fuel), ("pipeline", pipeline_alter fuel)])) l = some (cmd, l')) :
    l' = [] ∧ Says code env cmd (a :: l) := by
  obtain ⟨n, p, b, l1, hm, rfl, hb, h1⟩ := choice_sound h
  simp only [List.mem_cons, Prod.mk.injEq, List.not_mem_nil, or_false] at hm
  rcases hm with ⟨rfl, rfl⟩ | ⟨rfl, rfl⟩ | ⟨rfl, rfl⟩
  · rw [cloud_alter, finish_bind] at h1
    obtain ⟨e, pre, l2, rfl, he, h2⟩ := ie_sound h1
    rw [finish_bind] at h2
    obtain ⟨s, c, l3, rfl, hc, h3⟩ := name_sound h2
    rw [finish_bind] at h3
    rcases ifKw_sound h3 with ⟨f, l4, rfl, hf, h4⟩ | h4
    · rw [finish_bind] at h4
      rcases ifKw_sound h4 with ⟨t, l5, rfl, ht, h5⟩ | h5
      · rw [finish_bind] at h5
        obtain ⟨s', g, l6, rfl, hg, h6⟩ := name_sound h5
        obtain ⟨rfl, rfl, rfl⟩ := finish_ret h6
        exact ⟨rfl, .cloudRenameTo ha hb he hc hf ht hg⟩
      · rw [finish_bind] at h5
        obtain ⟨s', g, l6, rfl, hg, h6⟩ := name_sound h5
        obtain ⟨rfl, rfl, rfl⟩ := finish_ret h6
        exact ⟨rfl, .cloudRename ha hb he hc hf hg⟩
    · dsimp only at h4
      rw [finish_bind] at h4
      rcases ifKw_sound h4 with ⟨f, l4, rfl, hf, h5⟩ | h5
      · dsimp only at h5
        rw [finish_bind] at h5
        obtain ⟨pre', l5, cfg, m, rfl, ho, h6⟩ := options_sound cloud_table h5
        rw [finish_if] at h6
        by_cases hmask : m &&& 2 > 0
        · rw [if_pos hmask] at h6; exact (finish_fail h6).elim
        · rw [if_neg hmask] at h6
          obtain ⟨rfl, rfl, rfl⟩ := finish_ret h6
          rw [List.append_nil]
          exact ⟨rfl, .cloudAlter ha hb he hc hf ho (Nat.eq_zero_of_not_pos hmask)⟩
      · exact (finish_fail h5).elim
  · rw [storage_alter, finish_bind] at h1
    obtain ⟨e, pre, l2, rfl, he, h2⟩ := ie_sound h1
    rw [finish_bind] at h2
    obtain ⟨s, c, l3, rfl, hc, h3⟩ := name_sound h2
    rw [finish_bind] at h3
    rcases ifKw_sound h3 with ⟨f, l4, rfl, hf, h4⟩ | h4
    · rw [finish_bind] at h4
      rcases ifKw_sound h4 with ⟨t, l5, rfl, ht, h5⟩ | h5
      · rw [finish_bind] at h5
        obtain ⟨s', g, l6, rfl, hg, h6⟩ := name_sound h5
        obtain ⟨rfl, rfl, rfl⟩ := finish_ret h6
        exact ⟨rfl, .storageRenameTo ha hb he hc hf ht hg⟩
      · rw [finish_bind] at h5
        obtain ⟨s', g, l6, rfl, hg, h6⟩ := name_sound h5
        obtain ⟨rfl, rfl, rfl⟩ := finish_ret h6
        exact ⟨rfl, .storageRename ha hb he hc hf hg⟩
    · dsimp only at h4
      rw [finish_bind] at h4
      rcases ifKw_sound h4 with ⟨f, l4, rfl, hf, h5⟩ | h5
      · dsimp only at h5
        rw [finish_bind] at h5
        obtain ⟨pre', l5, cfg, m, rfl, ho, h6⟩ := options_sound storage_table h5
        rw [finish_if] at h6
        by_cases hmask : m &&& 1 > 0
        · rw [if_pos hmask] at h6; exact (finish_fail h6).elim
        · rw [if_neg hmask] at h6
          obtain ⟨rfl, rfl, rfl⟩ := finish_ret h6
          rw [List.append_nil]
          exact ⟨rfl, .storageAlter ha hb he hc hf ho (Nat.eq_zero_of_not_pos hmask)⟩
      · exact (finish_fail h5).elim
  · rw [pipeline_alter, finish_bind] at h1
    rcases ifKw_sound h1 with ⟨c, l2, rfl, hc, h2⟩ | h2
    · obtain ⟨rfl, rfl, rfl⟩ := finish_ret h2
      exact ⟨rfl, .pipelineReset ha hb hc⟩
    · dsimp only at h2
      rw [finish_bind] at h2
      obtain ⟨c, l3, rfl, hc, h3⟩ := kw_sound h2
      rw [finish_bind, exec_bind] at h3
      cases e : exec (pipeline_set fuel []) l3 with
      | none => rw [e] at h3; simp at h3
      | some p =>
        obtain ⟨r, l4⟩ := p
        rw [e] at h3
        simp only [Option.bind_some] at h3
        obtain ⟨rfl, cs, rfl, hcs⟩ := tiers_sound _ _ _ _ _ e
        obtain ⟨_, rfl, rfl⟩ := finish_ret h3
        exact ⟨rfl, .pipelineSet ha hb hc hcs⟩

theorem move_sound (ha : Kw "move" a) (h : exec (finish (choice
    [("partition", partition_move), ("partitions", partition_move_range)])) l = some (cmd, l')) :
    l' = [] ∧ Says code env cmd (a :: l) := by
  obtain ⟨n, p, b, l1, hm, rfl, hb, h1⟩ := choice_sound h
  simp only [List.mem_cons, Prod.mk.injEq, List.not_mem_nil, or_false] at hm
  rcases hm with ⟨rfl, rfl⟩ | ⟨rfl, rfl⟩
  · rw [partition_move, finish_bind] at h1
    obtain ⟨e, pre, l2, rfl, he, h2⟩ := ie_sound h1
    rw [finish_bind] at h2
    obtain ⟨n, l3, rfl, h3⟩ := int_sound h2
    rw [finish_bind] at h3
    obtain ⟨c, l4, rfl, hc, h4⟩ := kw_sound h3
    rw [finish_bind] at h4
    obtain ⟨s, f, l5, rfl, hf, h5⟩ := name_sound h4
    obtain ⟨rfl, rfl, rfl⟩ := finish_ret h5
    exact ⟨rfl, .move ha hb he hc hf⟩
  · rw [partition_move_range, finish_bind] at h1
    obtain ⟨min, max, pre, l2, rfl, he, h2⟩ := between_sound h1
    rw [finish_bind] at h2
    obtain ⟨c, l4, rfl, hc, h4⟩ := kw_sound h2
    rw [finish_bind] at h4
    obtain ⟨s, f, l5, rfl, hf, h5⟩ := name_sound h4
    obtain ⟨rfl, rfl, rfl⟩ := finish_ret h5
    exact ⟨rfl, .moveRange ha hb he hc hf⟩

theorem refresh_sound (ha : Kw "refresh" a) (h : exec (finish (choice
    [("partition", partition_refresh), ("partitions", partition_refresh_range)])) l = some (cmd, l')) :
    l' = [] ∧ Says code env cmd (a :: l) := by
  obtain ⟨n, p, b, l1, hm, rfl, hb, h1⟩ := choice_sound h
  simp only [List.mem_cons, Prod.mk.injEq, List.not_mem_nil, or_false] at hm
  rcases hm with ⟨rfl, rfl⟩ | ⟨rfl, rfl⟩
  · rw [partition_refresh, finish_bind] at h1
    obtain ⟨e, pre, l2, rfl, he, h2⟩ := ie_sound h1
    rw [finish_bind] at h2
    obtain ⟨n, l3, rfl, h3⟩ := int_sound h2
    obtain ⟨rfl, rfl, rfl⟩ := finish_ret h3
    exact ⟨rfl, .refresh ha hb he⟩
  · rw [partition_refresh_range, finish_bind] at h1
    obtain ⟨min, max, pre, l2, rfl, he, h2⟩ := between_sound h1
    obtain ⟨rfl, rfl, rfl⟩ := finish_ret h2
    rw [List.append_nil]
    exact ⟨rfl, .refreshRange ha hb he⟩

theorem download_sound (ha : Kw "download" a) (h : exec (finish (choice
    [("partition", partition_download), ("partitions", partition_download_range)])) l = some (cmd, l')) :
    l' = [] ∧ Says code env cmd (a :: l) := by
  obtain ⟨n, p, b, l1, hm, rfl, hb, h1⟩ := choice_sound h
  simp only [List.mem_cons, Prod.mk.injEq, List.not_mem_nil, or_false] at hm
  rcases hm with ⟨rfl, rfl⟩ | ⟨rfl, rfl⟩
  · rw [partition_download, finish_bind] at h1
    obtain ⟨e, pre, l2, rfl, he, h2⟩ := ie_sound h1
    rw [finish_bind] at h2
    obtain ⟨n, l3, rfl, h3⟩ := int_sound h2
    rw [finish_bind] at h3
    obtain ⟨c, pre', l4, rfl, hc, h4⟩ := ic_sound h3
    obtain ⟨rfl, rfl, rfl⟩ := finish_ret h4
    rw [List.append_nil]
    exact ⟨rfl, .download ha hb he hc⟩
  · rw [partition_download_range, finish_bind] at h1
    obtain ⟨min, max, pre, l2, rfl, he, h2⟩ := between_sound h1
    rw [finish_bind] at h2
    obtain ⟨c, pre', l4, rfl, hc, h4⟩ := ic_sound h2
    obtain ⟨rfl, rfl, rfl⟩ := finish_ret h4
    rw [List.append_nil]
    exact ⟨rfl, .downloadRange ha hb he hc⟩

theorem upload_sound (ha : Kw "upload" a) (h : exec (finish (choice
    [("partition", partition_upload), ("partitions", partition_upload_range)])) l = some (cmd, l')) :
    l' = [] ∧ Says code env cmd (a :: l) := by
  obtain ⟨n, p, b, l1, hm, rfl, hb, h1⟩ := choice_sound h
  simp only [List.mem_cons, Prod.mk.injEq, List.not_mem_nil, or_false] at hm
  rcases hm with ⟨rfl, rfl⟩ | ⟨rfl, rfl⟩
  · rw [partition_upload, finish_bind] at h1
    obtain ⟨e, pre, l2, rfl, he, h2⟩ := ie_sound h1
    rw [finish_bind] at h2
    obtain ⟨n, l3, rfl, h3⟩ := int_sound h2
    rw [finish_bind] at h3
    obtain ⟨c, pre', l4, rfl, hc, h4⟩ := ic_sound h3
    obtain ⟨rfl, rfl, rfl⟩ := finish_ret h4
    rw [List.append_nil]
    exact ⟨rfl, .upload ha hb he hc⟩
  · rw [partition_upload_range, finish_bind] at h1
    obtain ⟨min, max, pre, l2, rfl, he, h2⟩ := between_sound h1
    rw [finish_bind] at h2
    obtain ⟨c, pre', l4, rfl, hc, h4⟩ := ic_sound h2
    obtain ⟨rfl, rfl, rfl⟩ := finish_ret h4
    rw [List.append_nil]
    exact ⟨rfl, .uploadRange ha hb he hc⟩

theorem debugCmd_sound (ha : Kw "debug" a) (h : exec (finish debug_) l = some (cmd, l')) : l' = [] ∧ Says code env cmd (a :: l) := by
  rw [debug_, finish_bind] at h
  obtain ⟨s, l1, hl, h0⟩ := string_sound h
  subst hl
  clear h
  have h := h0
  rw [finish_if] at h
  by_cases h1 : s = bytes "wal_create"
  · rw [if_pos h1] at h
    obtain ⟨rfl, rfl, rfl⟩ := finish_ret h
    exact ⟨rfl, h1 ▸ .walCreate ha⟩
  · rw [if_neg h1, finish_if] at h
    by_cases h2 : s = bytes "wal_gc"
    · rw [if_pos h2] at h
      obtain ⟨rfl, rfl, rfl⟩ := finish_ret h
      exact ⟨rfl, h2 ▸ .walGc ha⟩
    · rw [if_neg h2, finish_if] at h
      by_cases h3 : s = bytes "wal_read"
      · rw [if_pos h3] at h
        obtain ⟨rfl, rfl, rfl⟩ := finish_ret h
        exact ⟨rfl, h3 ▸ .walRead ha⟩
      · rw [if_neg h3, finish_if] at h
        by_cases h4 : s = bytes "memory_gc"
        · rw [if_pos h4] at h
          obtain ⟨rfl, rfl, rfl⟩ := finish_ret h
          exact ⟨rfl, h4 ▸ .memoryGc ha⟩
        · rw [if_neg h4] at h
          exact (finish_fail h).elim

theorem set_sound (ha : Kw "set" a) (h : exec (finish set_) l = some (cmd, l')) : l' = [] ∧ Says code env cmd (a :: l) := by
  cases l with
  | nil => simp [set_, finish, Prog.bind, exec] at h
  | cons b l =>
    cases b with
    | word s =>
      have h1 : exec ((kw "to").bind fun _ => finish (.next fun v => .ret (.set s v))) l = some (cmd, l') := by
        have h2 : exec (finish ((kw "to").bind fun _ => .next fun v => .ret (.set s v))) l = some (cmd, l') := h
        rwa [finish_bind] at h2
      obtain ⟨c, l1, rfl, hc, h2⟩ := kw_sound h1
      cases l1 with
      | nil =>
        have h3 : exec (finish (.ret (.set s .eof))) [] = some (cmd, l') := h2
        obtain ⟨_, rfl, rfl⟩ := finish_ret h3
        exact ⟨rfl, .setEnd ha hc⟩
      | cons v l1 =>
        have h3 : exec (finish (.ret (.set s (token v)))) l1 = some (cmd, l') := h2
        obtain ⟨rfl, rfl, rfl⟩ := finish_ret h3
        exact ⟨rfl, .set ha hc⟩
    | _ => simp [set_, finish, Prog.bind, exec] at h

theorem says_sound (h : exec (parseProg env fuel) l = some (cmd, l')) : l' = [] ∧ Says code env cmd l := by
  cases l with
  | nil =>
    have h1 : exec (finish (.ret .empty)) [] = some (cmd, l') := h
    obtain ⟨_, rfl, rfl⟩ := finish_ret h1
    exact ⟨rfl, .empty⟩
  | cons a l =>
    have h1 : exec (finish (command env fuel (token a))) l = some (cmd, l') := h
    unfold command at h1
    split at h1
    · rename_i s e; exact set_sound (kw_of_token e).1 h1
    · rename_i s e
      rw [finish, exec_bind] at h1
      cases e2 : exec (show_ fuel []) l with
      | none => rw [e2] at h1; simp at h1
      | some p =>
        obtain ⟨c, l2⟩ := p
        rw [e2] at h1
        simp only [Option.bind_some] at h1
        obtain ⟨ops, pre, rfl, rfl, ho⟩ := show_sound _ _ _ _ _ e2
        obtain ⟨rfl, rfl, rfl⟩ := end_sound h1
        rw [List.append_nil]
        exact ⟨rfl, .show_ (kw_of_token e).1 ho⟩
    · rename_i s e; exact debugCmd_sound (kw_of_token e).1 h1
    · rename_i s e
      obtain ⟨rfl, rfl, rfl⟩ := finish_ret h1
      exact ⟨rfl, .checkpoint (kw_of_token e).1⟩
    · rename_i s e
      obtain ⟨rfl, rfl, rfl⟩ := finish_ret h1
      exact ⟨rfl, .service (kw_of_token e).1⟩
    · rename_i s e
      obtain ⟨rfl, rfl, rfl⟩ := finish_ret h1
      exact ⟨rfl, .rebalance (kw_of_token e).1⟩
    · rename_i s e; exact create_sound (kw_of_token e).1 h1
    · rename_i s e; exact drop_sound (kw_of_token e).1 h1
    · rename_i s e; exact alter_sound (kw_of_token e).1 h1
    · rename_i s e; exact move_sound (kw_of_token e).1 h1
    · rename_i s e; exact refresh_sound (kw_of_token e).1 h1
    · rename_i s e; exact download_sound (kw_of_token e).1 h1
    · rename_i s e; exact upload_sound (kw_of_token e).1 h1
    · rename_i e; exact absurd e (token_ne_eof a)
    · exact (finish_fail h1).elim

end
end Verif.C58
