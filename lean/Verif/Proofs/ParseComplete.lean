import Verif.Proofs.ParseSays

/-! C58: every command of the grammar of the code is taken. -/
namespace Verif.C58
open Lex Parse

section
variable {β : Type}

theorem ine_yes {e : Bool} {pre l : List Item} (h : IfNotExists e pre) (hl : NotKw "if" l) (f : Bool → Prog β) :
    exec (if_not_exists.bind f) (pre ++ l) = exec (f e) l := by
  rw [if_not_exists, bind_assoc]
  cases h with
  | no => rw [List.nil_append, ifKw_no hl]; rfl
  | yes ha hb hc =>
    rename_i a b c
    rw [show [a, b, c] ++ l = a :: b :: c :: l from rfl, ifKw_yes ha (by decide +kernel)]
    dsimp only
    rw [bind_assoc, kw_yes hb (by decide +kernel), bind_assoc, kw_yes hc (by decide +kernel)]
    rfl

theorem ie_yes {e : Bool} {pre l : List Item} (h : IfExists e pre) (hl : NotKw "if" l) (f : Bool → Prog β) :
    exec (if_exists.bind f) (pre ++ l) = exec (f e) l := by
  rw [if_exists, bind_assoc]
  cases h with
  | no => rw [List.nil_append, ifKw_no hl]; rfl
  | yes ha hb =>
    rename_i a b
    rw [show [a, b] ++ l = a :: b :: l from rfl, ifKw_yes ha (by decide +kernel)]
    dsimp only
    rw [bind_assoc, kw_yes hb (by decide +kernel)]
    rfl

theorem ic_yes {e : Bool} {pre : List Item} (h : IfCloud e pre) (f : Bool → Prog β) :
    exec (if_cloud.bind f) pre = exec (f e) [] := by
  rw [if_cloud, bind_assoc]
  cases h with
  | no => rw [ifKw_no (notKw_nil _)]; rfl
  | yes ha hb =>
    rw [ifKw_yes ha (by decide +kernel)]
    dsimp only
    rw [bind_assoc, kw_yes hb (by decide +kernel)]
    rfl

theorem on_yes {m : Nat} {pre : List Item} (h : On m pre) (f : Nat → Prog β) : exec (on_mask.bind f) pre = exec (f m) [] := by
  rw [on_mask, bind_assoc]
  cases h with
  | both => rw [ifKw_no (notKw_nil _)]; rfl
  | storage ha hb =>
    rw [ifKw_yes ha (by decide +kernel)]
    dsimp only
    rw [bind_assoc, ifKw_yes hb (by decide +kernel)]
    rfl
  | cloud ha hb =>
    rw [ifKw_yes ha (by decide +kernel)]
    dsimp only
    rw [bind_assoc, ifKw_no (notKw_kw hb (by decide +kernel) (by decide) _)]
    dsimp only
    rw [bind_assoc, kw_yes hb (by decide +kernel)]
    rfl

theorem between_yes {min max : Nat} {pre : List Item} (h : Between min max pre) (f : Nat × Nat → Prog β) (l : List Item) :
    exec (between.bind f) (pre ++ l) = exec (f (min, max)) l := by
  rw [between, bind_assoc]
  cases h with
  | mk ha hb =>
    rw [List.cons_append, kw_yes ha (by decide +kernel), bind_assoc, List.cons_append, int_yes, bind_assoc, List.cons_append,
      kw_yes hb (by decide +kernel), bind_assoc, List.cons_append, int_yes]
    rfl

theorem finish_ok (c : Cmd) : exec (finish (.ret c)) [] = some (c, []) := rfl

theorem choice_here {n : String} {p : Prog Cmd} {cs : List (String × Prog Cmd)} {a : Item} (h : Kw n a) (hn : n ∈ keywords)
    (l : List Item) : exec (finish (choice ((n, p) :: cs))) (a :: l) = exec (finish p) l := by
  rw [choice, finish_bind, ifKw_yes h hn]

theorem choice_there {n m : String} {p : Prog Cmd} {cs : List (String × Prog Cmd)} {a : Item} (h : Kw m a) (hm : m ∈ keywords)
    (hne : m ≠ n) (l : List Item) : exec (finish (choice ((n, p) :: cs))) (a :: l) = exec (finish (choice cs)) (a :: l) := by
  rw [choice, finish_bind, ifKw_no (notKw_kw h hm hne l)]

theorem first_yes {n : String} {a : Item} (h : Kw n a) (hn : n ∈ keywords) {env : Env} {fuel : Nat} (l : List Item) :
    ∃ s, exec (parseProg env fuel) (a :: l) = exec (finish (command env fuel (.keyword (.kw n) s))) l := by
  obtain ⟨s, rfl, e⟩ := kw_token_eq hn h
  exact ⟨s, by rw [← e]; rfl⟩

end

theorem notSym_name {s : List Nat} {a : Item} (h : Name s a) (c : Nat) (l : List Item) : NotSym c (a :: l) := by
  rw [h.1]; exact notSym_word _ _ _

theorem notSym_kw {n : String} {a : Item} (h : Kw n a) (c : Nat) (l : List Item) : NotSym c (a :: l) := by
  obtain ⟨s, rfl, _⟩ := h
  exact notSym_word _ _ _

theorem tiers_complete {cs : List TierConfig} {l : List Item} (h : Tiers code cs l) : ∀ (fuel : Nat) (acc : List TierConfig),
    l.length < fuel → exec (pipeline_set fuel acc) l = some (acc ++ cs, []) := by
  induction h with
  | last ha =>
    intro fuel acc hf
    obtain ⟨fuel, rfl⟩ : ∃ k, fuel = k + 1 := ⟨fuel - 1, by omega⟩
    rw [pipeline_set, name_yes ha]
    dsimp only
    rw [sym_no (notSym_nil _), eof_yes]
    rfl
  | lastOpts ha ho =>
    rename_i s a l c m
    intro fuel acc hf
    obtain ⟨fuel, rfl⟩ : ∃ k, fuel = k + 1 := ⟨fuel - 1, by omega⟩
    simp only [List.length_append, List.length_cons, List.length_nil] at hf
    rw [pipeline_set, List.cons_append, List.cons_append, name_yes ha]
    dsimp only
    rw [sym_no (notSym_sym (by decide) _), eof_no, sym_yes]
    dsimp only
    obtain ⟨w, l', e⟩ := ho.head
    rw [sym_no (by rw [e]; exact notSym_word _ _ _), exec_bind, optionLoop_complete tier_table ho _ _ (by omega), Option.bind_some,
      sym_no (notSym_nil _), eof_yes]
    rfl
  | lastEmpty h => simp [code] at h
  | more ha _ ih =>
    intro fuel acc hf
    obtain ⟨fuel, rfl⟩ : ∃ k, fuel = k + 1 := ⟨fuel - 1, by omega⟩
    simp only [List.length_cons] at hf
    rw [pipeline_set, name_yes ha]
    dsimp only
    rw [sym_yes]
    dsimp only
    rw [ih fuel _ (by omega), List.append_assoc]
    rfl
  | moreOpts ha ho _ ih =>
    rename_i s a l c m cs l'
    intro fuel acc hf
    obtain ⟨fuel, rfl⟩ : ∃ k, fuel = k + 1 := ⟨fuel - 1, by omega⟩
    simp only [List.length_append, List.length_cons] at hf
    rw [pipeline_set, List.cons_append, List.cons_append, name_yes ha]
    dsimp only
    rw [sym_no (notSym_sym (by decide) _), eof_no, sym_yes]
    dsimp only
    obtain ⟨w, l'', e⟩ := ho.head
    rw [sym_no (by rw [e]; exact notSym_word _ _ _), exec_bind, optionLoop_complete tier_table ho _ _ (by omega), Option.bind_some,
      sym_yes]
    dsimp only
    rw [ih fuel _ (by omega), List.append_assoc]
    rfl
  | moreEmpty h => simp [code] at h
  | nocomma _ ha _ ih =>
    intro fuel acc hf
    obtain ⟨fuel, rfl⟩ : ∃ k, fuel = k + 1 := ⟨fuel - 1, by omega⟩
    simp only [List.length_cons] at hf
    rw [pipeline_set, name_yes ha]
    dsimp only
    rw [sym_no (notSym_sym (by decide) _), eof_no, sym_yes]
    dsimp only
    rw [sym_yes]
    dsimp only
    rw [ih fuel _ (by omega), List.append_assoc]
    rfl

/-- What may follow a thing to show: a comma or the end. -/
def Follows (l : List Item) : Prop := l = [] ∨ ∃ l', l = .symbol 44 :: l'

theorem Follows.notKw {l : List Item} (h : Follows l) (n : String) : NotKw n l := by
  rcases h with rfl | ⟨l', rfl⟩
  · exact notKw_nil _
  · exact notKw_sym _ _ _

theorem debug_yes {β : Type} {d : Bool} {dl l : List Item} (h : Debug d dl) (hl : Follows l) (f : Bool → Prog β) :
    exec ((ifKw "debug").bind f) (dl ++ l) = exec (f d) l := by
  cases h with
  | no => rw [List.nil_append, ifKw_no (hl.notKw _)]
  | yes ha => rw [List.cons_append, ifKw_yes ha (by decide +kernel)]; rfl

theorem showOne_complete {op : ShowOp} {l l' : List Item} (h : ShowOps1 op l) (hl : Follows l') (fuel : Nat) (acc : List ShowOp) :
    exec (show_ (fuel + 1) acc) (l ++ l') = exec (.lexIf (isSym 44) fun
      | some _ => show_ fuel (acc ++ [op])
      | none => .ret (.show (acc ++ [op]))) l' := by
  rw [show_]
  cases h with
  | memory ha hd =>
    obtain ⟨s, rfl, e⟩ := kw_token_eq (by decide +kernel) ha
    simp only [List.cons_append, exec, e]
    simp only [show_op, Prog.bind]
    rw [debug_yes hd hl]
    rfl
  | wal ha hd =>
    obtain ⟨s, rfl, e⟩ := kw_token_eq (by decide +kernel) ha
    simp only [List.cons_append, exec, e]
    simp only [show_op, Prog.bind]
    rw [debug_yes hd hl]
    rfl
  | cloud ha hb hd =>
    obtain ⟨s, rfl, e⟩ := kw_token_eq (by decide +kernel) ha
    simp only [List.cons_append, exec, e]
    simp only [show_op]
    rw [bind_assoc, name_yes hb]
    simp only [Prog.bind]
    rw [debug_yes hd hl]
    rfl
  | clouds ha hd =>
    obtain ⟨s, rfl, e⟩ := kw_token_eq (by decide +kernel) ha
    simp only [List.cons_append, exec, e]
    simp only [show_op, Prog.bind]
    rw [debug_yes hd hl]
    rfl
  | storage ha hb hd =>
    obtain ⟨s, rfl, e⟩ := kw_token_eq (by decide +kernel) ha
    simp only [List.cons_append, exec, e]
    simp only [show_op]
    rw [bind_assoc, name_yes hb]
    simp only [Prog.bind]
    rw [debug_yes hd hl]
    rfl
  | storages ha hd =>
    obtain ⟨s, rfl, e⟩ := kw_token_eq (by decide +kernel) ha
    simp only [List.cons_append, exec, e]
    simp only [show_op, Prog.bind]
    rw [debug_yes hd hl]
    rfl
  | partition ha hd =>
    obtain ⟨s, rfl, e⟩ := kw_token_eq (by decide +kernel) ha
    simp only [List.cons_append, exec, e]
    simp only [show_op]
    rw [bind_assoc, int_yes]
    simp only [Prog.bind]
    rw [debug_yes hd hl]
    rfl
  | partitionsOf ha hb hd =>
    obtain ⟨s, rfl, e⟩ := kw_token_eq (by decide +kernel) ha
    simp only [List.cons_append, exec, e]
    simp only [show_op, Prog.bind, exec, name_token.2 hb, isName, if_true]
    rw [debug_yes hd hl]
    rfl
  | partitions ha hd =>
    rename_i a d dl
    obtain ⟨s, rfl, e⟩ := kw_token_eq (by decide +kernel) ha
    simp only [List.cons_append, exec, e]
    simp only [show_op, Prog.bind]
    have hn : ∀ (k : Option Token → Prog Cmd), exec (.lexIf isName k) (dl ++ l') = exec (k none) (dl ++ l') := by
      intro k
      cases hd with
      | no =>
        rcases hl with rfl | ⟨l2, rfl⟩
        · simp [exec, isName]
        · simp [exec, token, isName]
      | yes hd =>
        obtain ⟨s, rfl, e⟩ := kw_token_eq (by decide +kernel) hd
        simp [exec, e, isName]
    rw [hn]
    dsimp only [Prog.bind]
    rw [debug_yes hd hl]
    rfl
  | pipeline ha hd =>
    obtain ⟨s, rfl, e⟩ := kw_token_eq (by decide +kernel) ha
    simp only [List.cons_append, exec, e]
    simp only [show_op, Prog.bind]
    rw [debug_yes hd hl]
    rfl
  | configOf ha hd =>
    rcases ha with ha | ha <;>
    · obtain ⟨s, rfl, e⟩ := kw_token_eq (by decide +kernel) ha
      simp only [List.cons_append, exec, e]
      simp only [show_op, Prog.bind, exec]
      rw [debug_yes hd hl]
      rfl
  | configStr ha hd =>
    rcases ha with ha | ha <;>
    · obtain ⟨s, rfl, e⟩ := kw_token_eq (by decide +kernel) ha
      simp only [List.cons_append, exec, e]
      simp only [show_op, Prog.bind, exec, token, isString, if_true]
      rw [debug_yes hd hl]
      rfl
  | config ha =>
    rcases ha with ha | ha <;>
    · obtain ⟨s, rfl, e⟩ := kw_token_eq (by decide +kernel) ha
      simp only [List.cons_append, List.nil_append, exec, e]
      rcases hl with rfl | ⟨l2, rfl⟩
      · simp only [show_op, Prog.bind, exec, isString, Bool.false_eq_true, if_false]
        rw [ifKw_no (notKw_nil _)]
        rfl
      · simp only [show_op, Prog.bind, exec, token, isString, Bool.false_eq_true, if_false]
        rw [ifKw_no (notKw_sym _ _ _)]
        rfl
  | name ha hd =>
    simp only [List.cons_append, exec, name_token.2 ha]
    simp only [show_op, Prog.bind]
    rw [debug_yes hd hl]
    rfl
  | str hd =>
    simp only [List.cons_append, exec, token]
    simp only [show_op, Prog.bind]
    rw [debug_yes hd hl]
    rfl

theorem ShowOps1.length {op : ShowOp} {l : List Item} (h : ShowOps1 op l) : 1 ≤ l.length := by
  cases h <;> simp

theorem show_complete {ops : List ShowOp} {l : List Item} (h : ShowOps ops l) : ∀ (fuel : Nat) (acc : List ShowOp),
    l.length < fuel → exec (show_ fuel acc) l = some (.show (acc ++ ops), []) := by
  induction h with
  | last h1 =>
    intro fuel acc hf
    obtain ⟨fuel, rfl⟩ : ∃ k, fuel = k + 1 := ⟨fuel - 1, by omega⟩
    have := showOne_complete (l' := []) h1 (Or.inl rfl) fuel acc
    rw [List.append_nil] at this
    rw [this, sym_no (notSym_nil _)]
    rfl
  | more h1 _ ih =>
    intro fuel acc hf
    obtain ⟨fuel, rfl⟩ : ∃ k, fuel = k + 1 := ⟨fuel - 1, by omega⟩
    simp only [List.length_append, List.length_cons] at hf
    have := h1.length
    rw [showOne_complete h1 (Or.inr ⟨_, rfl⟩), sym_yes]
    dsimp only
    rw [ih fuel _ (by omega), List.append_assoc]
    rfl

theorem says_complete {env : Env} {cmd : Cmd} {l : List Item} (h : Says code env cmd l) {fuel : Nat} (hf : l.length < fuel) :
    exec (parseProg env fuel) l = some (cmd, []) := by
  cases h with
  | empty => rfl
  | show_ ha ho =>
    obtain ⟨s, e⟩ := first_yes ha (by decide +kernel) (env := env) (fuel := fuel) _
    rw [e]
    simp only [List.length_cons] at hf
    show exec (finish (show_ fuel [])) _ = _
    rw [finish, exec_bind, show_complete ho fuel [] (by omega)]
    rfl
  | set ha hb =>
    obtain ⟨s, e⟩ := first_yes ha (by decide +kernel) (env := env) (fuel := fuel) _
    rw [e]
    show exec (finish set_) _ = _
    rename_i a w b v
    show exec (finish ((kw "to").bind fun _ => .next fun v => .ret (.set w v))) [b, v] = _
    rw [finish_bind, kw_yes hb (by decide +kernel)]
    rfl
  | setEnd ha hb =>
    obtain ⟨s, e⟩ := first_yes ha (by decide +kernel) (env := env) (fuel := fuel) _
    rw [e]
    show exec (finish set_) _ = _
    rename_i a w b
    show exec (finish ((kw "to").bind fun _ => .next fun v => .ret (.set w v))) [b] = _
    rw [finish_bind, kw_yes hb (by decide +kernel)]
    rfl
  | walCreate ha =>
    obtain ⟨s, e⟩ := first_yes ha (by decide +kernel) (env := env) (fuel := fuel) _
    rw [e]
    show exec (finish debug_) _ = _
    rw [debug_, finish_bind, string_yes, if_pos rfl]
    rfl
  | walGc ha =>
    obtain ⟨s, e⟩ := first_yes ha (by decide +kernel) (env := env) (fuel := fuel) _
    rw [e]
    show exec (finish debug_) _ = _
    rw [debug_, finish_bind, string_yes, if_neg (by decide +kernel), if_pos rfl]
    rfl
  | walRead ha =>
    obtain ⟨s, e⟩ := first_yes ha (by decide +kernel) (env := env) (fuel := fuel) _
    rw [e]
    show exec (finish debug_) _ = _
    rw [debug_, finish_bind, string_yes, if_neg (by decide +kernel), if_neg (by decide +kernel), if_pos rfl]
    rfl
  | memoryGc ha =>
    obtain ⟨s, e⟩ := first_yes ha (by decide +kernel) (env := env) (fuel := fuel) _
    rw [e]
    show exec (finish debug_) _ = _
    rw [debug_, finish_bind, string_yes, if_neg (by decide +kernel), if_neg (by decide +kernel), if_neg (by decide +kernel), if_pos rfl]
    rfl
  | checkpoint ha =>
    obtain ⟨s, e⟩ := first_yes ha (by decide +kernel) (env := env) (fuel := fuel) _
    rw [e]; rfl
  | service ha =>
    obtain ⟨s, e⟩ := first_yes ha (by decide +kernel) (env := env) (fuel := fuel) _
    rw [e]; rfl
  | rebalance ha =>
    obtain ⟨s, e⟩ := first_yes ha (by decide +kernel) (env := env) (fuel := fuel) _
    rw [e]; rfl
  | cloudCreate ha hb he hc ho =>
    rename_i a b ex pre w c pre' cfg m
    obtain ⟨s, e⟩ := first_yes ha (by decide +kernel) (env := env) (fuel := fuel) (b :: pre ++ c :: pre')
    simp only [List.length_append, List.length_cons] at hf
    rw [List.cons_append, e]
    show exec (finish (choice _)) _ = _
    rw [List.cons_append, choice_here hb (by decide +kernel), cloud_create, finish_bind, ine_yes he (notKw_name hc _), finish_bind,
      name_yes hc, finish_bind]
    have := options_complete (l := []) cloud_table (fuel := fuel) ho (by omega) (fun _ => notSym_nil _)
      fun a => finish (Prog.ret (Cmd.cloudCreate ex a.fst))
    rw [List.append_nil] at this
    rw [this]
    rfl
  | cloudDrop ha hb he hc =>
    rename_i a b ex pre w c
    obtain ⟨s, e⟩ := first_yes ha (by decide +kernel) (env := env) (fuel := fuel) (b :: pre ++ [c])
    rw [List.cons_append, e]
    show exec (finish (choice _)) _ = _
    rw [List.cons_append, choice_here hb (by decide +kernel), cloud_drop, finish_bind, ie_yes he (notKw_name hc _), finish_bind,
      name_yes hc]
    rfl
  | cloudRename ha hb he hc hk hg =>
    rename_i a b ex pre w c f s' g
    obtain ⟨s, e⟩ := first_yes ha (by decide +kernel) (env := env) (fuel := fuel) (b :: pre ++ [c, f, g])
    rw [List.cons_append, e]
    show exec (finish (choice _)) _ = _
    rw [List.cons_append, choice_here hb (by decide +kernel), cloud_alter, finish_bind, ie_yes he (notKw_name hc _), finish_bind,
      name_yes hc, finish_bind, ifKw_yes hk (by decide +kernel)]
    dsimp only
    rw [finish_bind, ifKw_no (notKw_name hg _), finish_bind, name_yes hg]
    rfl
  | cloudRenameTo ha hb he hc hk ht hg =>
    rename_i a b ex pre w c f t s' g
    obtain ⟨s, e⟩ := first_yes ha (by decide +kernel) (env := env) (fuel := fuel) (b :: pre ++ [c, f, t, g])
    rw [List.cons_append, e]
    show exec (finish (choice _)) _ = _
    rw [List.cons_append, choice_here hb (by decide +kernel), cloud_alter, finish_bind, ie_yes he (notKw_name hc _), finish_bind,
      name_yes hc, finish_bind, ifKw_yes hk (by decide +kernel)]
    dsimp only
    rw [finish_bind, ifKw_yes ht (by decide +kernel), finish_bind, name_yes hg]
    rfl
  | cloudAlter ha hb he hc hk ho hm =>
    rename_i a b ex pre w c f pre' cfg m
    obtain ⟨s, e⟩ := first_yes ha (by decide +kernel) (env := env) (fuel := fuel) (b :: pre ++ c :: f :: pre')
    simp only [List.length_append, List.length_cons] at hf
    rw [List.cons_append, e]
    show exec (finish (choice _)) _ = _
    rw [List.cons_append, choice_here hb (by decide +kernel), cloud_alter, finish_bind, ie_yes he (notKw_name hc _), finish_bind,
      name_yes hc, finish_bind, ifKw_no (notKw_kw hk (by decide +kernel) (by decide) _)]
    dsimp only
    rw [finish_bind, ifKw_yes hk (by decide +kernel)]
    dsimp only
    rw [finish_bind]
    have := options_complete (l := []) cloud_table (fuel := fuel) ho (by omega) (fun _ => notSym_nil _) fun a =>
      finish (if a.snd &&& 2 > 0 then Prog.fail "cloud type cannot be changed" else Prog.ret (Cmd.cloudAlter ex w a.fst a.snd))
    rw [List.append_nil] at this
    rw [this]
    dsimp only
    rw [hm]
    rfl
  | storageCreate ha hb he hc ho =>
    rename_i a b ex pre w c pre' cfg m
    obtain ⟨s, e⟩ := first_yes ha (by decide +kernel) (env := env) (fuel := fuel) (b :: pre ++ c :: pre')
    simp only [List.length_append, List.length_cons] at hf
    rw [List.cons_append, e]
    show exec (finish (choice _)) _ = _
    have henc := options_encryption ho (by simp [newStorage, Source.allocate])
    rw [List.cons_append, choice_there hb (by decide +kernel) (by decide), choice_here hb (by decide +kernel), storage_create,
      finish_bind, ine_yes he (notKw_name hc _), finish_bind, name_yes hc]
    dsimp only
    have hnew : (if env.compression = [] then { Source.allocate with name := str w, uuid := env.uuid }
        else { Source.allocate with
          name := str w
          uuid := env.uuid
          compression := env.compression
          compression_level := env.compressionLevel }) = newStorage env w := by
      unfold newStorage
      by_cases hc : env.compression = []
      · rw [if_pos hc, if_pos hc, if_pos hc]; rfl
      · rw [if_neg hc, if_neg hc, if_neg hc]
    rw [hnew, finish_bind]
    have := options_complete (l := []) storage_table (fuel := fuel) ho (by omega) (fun _ => notSym_nil _) fun r => finish
      (if encryptionOf r.1.encryption ≠ 0 ∧ r.1.encryption_key = [] then
        Prog.ret (Cmd.storageCreate ex { r.1 with encryption_key := env.key }) else Prog.ret (Cmd.storageCreate ex r.1))
    rw [List.append_nil] at this
    rw [this]
    dsimp only
    rw [withKey_eq henc]
    split <;> rfl
  | storageDrop ha hb he hc =>
    rename_i a b ex pre w c
    obtain ⟨s, e⟩ := first_yes ha (by decide +kernel) (env := env) (fuel := fuel) (b :: pre ++ [c])
    rw [List.cons_append, e]
    show exec (finish (choice _)) _ = _
    rw [List.cons_append, choice_there hb (by decide +kernel) (by decide), choice_here hb (by decide +kernel), storage_drop,
      finish_bind, ie_yes he (notKw_name hc _), finish_bind, name_yes hc]
    rfl
  | storageRename ha hb he hc hk hg =>
    rename_i a b ex pre w c f s' g
    obtain ⟨s, e⟩ := first_yes ha (by decide +kernel) (env := env) (fuel := fuel) (b :: pre ++ [c, f, g])
    rw [List.cons_append, e]
    show exec (finish (choice _)) _ = _
    rw [List.cons_append, choice_there hb (by decide +kernel) (by decide), choice_here hb (by decide +kernel), storage_alter,
      finish_bind, ie_yes he (notKw_name hc _), finish_bind, name_yes hc, finish_bind, ifKw_yes hk (by decide +kernel)]
    dsimp only
    rw [finish_bind, ifKw_no (notKw_name hg _), finish_bind, name_yes hg]
    rfl
  | storageRenameTo ha hb he hc hk ht hg =>
    rename_i a b ex pre w c f t s' g
    obtain ⟨s, e⟩ := first_yes ha (by decide +kernel) (env := env) (fuel := fuel) (b :: pre ++ [c, f, t, g])
    rw [List.cons_append, e]
    show exec (finish (choice _)) _ = _
    rw [List.cons_append, choice_there hb (by decide +kernel) (by decide), choice_here hb (by decide +kernel), storage_alter,
      finish_bind, ie_yes he (notKw_name hc _), finish_bind, name_yes hc, finish_bind, ifKw_yes hk (by decide +kernel)]
    dsimp only
    rw [finish_bind, ifKw_yes ht (by decide +kernel), finish_bind, name_yes hg]
    rfl
  | storageAlter ha hb he hc hk ho hm =>
    rename_i a b ex pre w c f pre' cfg m
    obtain ⟨s, e⟩ := first_yes ha (by decide +kernel) (env := env) (fuel := fuel) (b :: pre ++ c :: f :: pre')
    simp only [List.length_append, List.length_cons] at hf
    rw [List.cons_append, e]
    show exec (finish (choice _)) _ = _
    rw [List.cons_append, choice_there hb (by decide +kernel) (by decide), choice_here hb (by decide +kernel), storage_alter,
      finish_bind, ie_yes he (notKw_name hc _), finish_bind, name_yes hc, finish_bind,
      ifKw_no (notKw_kw hk (by decide +kernel) (by decide) _)]
    dsimp only
    rw [finish_bind, ifKw_yes hk (by decide +kernel)]
    dsimp only
    rw [finish_bind]
    have := options_complete (l := []) storage_table (fuel := fuel) ho (by omega) (fun _ => notSym_nil _) fun a =>
      finish (if a.snd &&& 1 > 0 then Prog.fail "storage uuid cannot be changed this way"
        else Prog.ret (Cmd.storageAlter ex w a.fst a.snd))
    rw [List.append_nil] at this
    rw [this]
    dsimp only
    rw [hm]
    rfl
  | pipelineReset ha hb hc =>
    obtain ⟨s, e⟩ := first_yes ha (by decide +kernel) (env := env) (fuel := fuel) _
    rw [e]
    show exec (finish (choice _)) _ = _
    rw [choice_there hb (by decide +kernel) (by decide), choice_there hb (by decide +kernel) (by decide),
      choice_here hb (by decide +kernel), pipeline_alter, finish_bind, ifKw_yes hc (by decide +kernel)]
    rfl
  | pipelineSet ha hb hc ht =>
    obtain ⟨s, e⟩ := first_yes ha (by decide +kernel) (env := env) (fuel := fuel) _
    simp only [List.length_cons] at hf
    rw [e]
    show exec (finish (choice _)) _ = _
    rw [choice_there hb (by decide +kernel) (by decide), choice_there hb (by decide +kernel) (by decide),
      choice_here hb (by decide +kernel), pipeline_alter, finish_bind, ifKw_no (notKw_kw hc (by decide +kernel) (by decide) _)]
    dsimp only
    rw [finish_bind, kw_yes hc (by decide +kernel), finish_bind, exec_bind, tiers_complete ht fuel [] (by omega)]
    rfl
  | create ha hb =>
    obtain ⟨s, e⟩ := first_yes ha (by decide +kernel) (env := env) (fuel := fuel) _
    rw [e]
    show exec (finish (choice _)) _ = _
    rw [choice_there hb (by decide +kernel) (by decide), choice_there hb (by decide +kernel) (by decide),
      choice_here hb (by decide +kernel), partition_create, finish_bind, int_yes]
    rfl
  | create1 ha hb =>
    obtain ⟨s, e⟩ := first_yes ha (by decide +kernel) (env := env) (fuel := fuel) _
    rw [e]
    show exec (finish (choice _)) _ = _
    rw [choice_there hb (by decide +kernel) (by decide), choice_there hb (by decide +kernel) (by decide),
      choice_here hb (by decide +kernel), partition_create, finish_bind, int_yes, ← wrapU64_nat]
    rfl
  | drop ha hb he ho =>
    rename_i a b ex pre n m pre'
    obtain ⟨s, e⟩ := first_yes ha (by decide +kernel) (env := env) (fuel := fuel) (b :: pre ++ .int n :: pre')
    rw [List.cons_append, e]
    show exec (finish (choice _)) _ = _
    rw [List.cons_append, choice_there hb (by decide +kernel) (by decide), choice_there hb (by decide +kernel) (by decide),
      choice_here hb (by decide +kernel), partition_drop, finish_bind, ie_yes he (notKw_int _ _ _), finish_bind, int_yes, finish_bind,
      on_yes ho]
    rfl
  | dropRange ha hb he ho =>
    rename_i a b min max pre m pre'
    obtain ⟨s, e⟩ := first_yes ha (by decide +kernel) (env := env) (fuel := fuel) (b :: pre ++ pre')
    rw [List.cons_append, e]
    show exec (finish (choice _)) _ = _
    rw [List.cons_append, choice_there hb (by decide +kernel) (by decide), choice_there hb (by decide +kernel) (by decide),
      choice_there hb (by decide +kernel) (by decide), choice_here hb (by decide +kernel), partition_drop_range, finish_bind,
      between_yes he, finish_bind, on_yes ho]
    rfl
  | move ha hb he hc hg =>
    rename_i a b ex pre n c w f
    obtain ⟨s, e⟩ := first_yes ha (by decide +kernel) (env := env) (fuel := fuel) (b :: pre ++ [.int n, c, f])
    rw [List.cons_append, e]
    show exec (finish (choice _)) _ = _
    rw [List.cons_append, choice_here hb (by decide +kernel), partition_move, finish_bind, ie_yes he (notKw_int _ _ _), finish_bind,
      int_yes, finish_bind, kw_yes hc (by decide +kernel), finish_bind, name_yes hg]
    rfl
  | moveRange ha hb he hc hg =>
    rename_i a b min max pre c w f
    obtain ⟨s, e⟩ := first_yes ha (by decide +kernel) (env := env) (fuel := fuel) (b :: pre ++ [c, f])
    rw [List.cons_append, e]
    show exec (finish (choice _)) _ = _
    rw [List.cons_append, choice_there hb (by decide +kernel) (by decide), choice_here hb (by decide +kernel), partition_move_range,
      finish_bind, between_yes he, finish_bind, kw_yes hc (by decide +kernel), finish_bind, name_yes hg]
    rfl
  | refresh ha hb he =>
    rename_i a b ex pre n
    obtain ⟨s, e⟩ := first_yes ha (by decide +kernel) (env := env) (fuel := fuel) (b :: pre ++ [.int n])
    rw [List.cons_append, e]
    show exec (finish (choice _)) _ = _
    rw [List.cons_append, choice_here hb (by decide +kernel), partition_refresh, finish_bind, ie_yes he (notKw_int _ _ _), finish_bind,
      int_yes]
    rfl
  | refreshRange ha hb he =>
    rename_i a b min max pre
    obtain ⟨s, e⟩ := first_yes ha (by decide +kernel) (env := env) (fuel := fuel) (b :: pre)
    rw [e]
    show exec (finish (choice _)) _ = _
    have := between_yes he (fun r => finish (.ret (.partition { type := .refreshRange, min := r.1, max := r.2 }))) []
    rw [List.append_nil] at this
    rw [choice_there hb (by decide +kernel) (by decide), choice_here hb (by decide +kernel), partition_refresh_range,
      finish_bind, this]
    rfl
  | download ha hb he ho =>
    rename_i a b ex pre n m pre'
    obtain ⟨s, e⟩ := first_yes ha (by decide +kernel) (env := env) (fuel := fuel) (b :: pre ++ .int n :: pre')
    rw [List.cons_append, e]
    show exec (finish (choice _)) _ = _
    rw [List.cons_append, choice_here hb (by decide +kernel), partition_download, finish_bind, ie_yes he (notKw_int _ _ _), finish_bind,
      int_yes, finish_bind, ic_yes ho]
    rfl
  | downloadRange ha hb he ho =>
    rename_i a b min max pre m pre'
    obtain ⟨s, e⟩ := first_yes ha (by decide +kernel) (env := env) (fuel := fuel) (b :: pre ++ pre')
    rw [List.cons_append, e]
    show exec (finish (choice _)) _ = _
    rw [List.cons_append, choice_there hb (by decide +kernel) (by decide), choice_here hb (by decide +kernel),
      partition_download_range, finish_bind, between_yes he, finish_bind, ic_yes ho]
    rfl
  | upload ha hb he ho =>
    rename_i a b ex pre n m pre'
    obtain ⟨s, e⟩ := first_yes ha (by decide +kernel) (env := env) (fuel := fuel) (b :: pre ++ .int n :: pre')
    rw [List.cons_append, e]
    show exec (finish (choice _)) _ = _
    rw [List.cons_append, choice_here hb (by decide +kernel), partition_upload, finish_bind, ie_yes he (notKw_int _ _ _), finish_bind,
      int_yes, finish_bind, ic_yes ho]
    rfl
  | uploadRange ha hb he ho =>
    rename_i a b min max pre m pre'
    obtain ⟨s, e⟩ := first_yes ha (by decide +kernel) (env := env) (fuel := fuel) (b :: pre ++ pre')
    rw [List.cons_append, e]
    show exec (finish (choice _)) _ = _
    rw [List.cons_append, choice_there hb (by decide +kernel) (by decide), choice_here hb (by decide +kernel),
      partition_upload_range, finish_bind, between_yes he, finish_bind, ic_yes ho]
    rfl

end Verif.C58
