import Verif.Proofs.ParseTables

/-! C58: what a parser took is what the grammar says. -/
namespace Verif.C58
open Lex Parse

section
variable {β : Type} {r : β × List Item} {l : List Item}

theorem ine_sound {f : Bool → Prog β} (h : exec (if_not_exists.bind f) l = some r) :
    ∃ e pre l', l = pre ++ l' ∧ IfNotExists e pre ∧ exec (f e) l' = some r := by
  rw [if_not_exists, bind_assoc] at h
  rcases ifKw_sound h with ⟨a, l1, rfl, ha, h⟩ | h
  · rw [bind_assoc] at h
    obtain ⟨b, l2, rfl, hb, h⟩ := kw_sound h
    rw [bind_assoc] at h
    obtain ⟨c, l3, rfl, hc, h⟩ := kw_sound h
    exact ⟨true, [a, b, c], l3, rfl, .yes ha hb hc, h⟩
  · exact ⟨false, [], l, rfl, .no, h⟩

theorem ie_sound {f : Bool → Prog β} (h : exec (if_exists.bind f) l = some r) :
    ∃ e pre l', l = pre ++ l' ∧ IfExists e pre ∧ exec (f e) l' = some r := by
  rw [if_exists, bind_assoc] at h
  rcases ifKw_sound h with ⟨a, l1, rfl, ha, h⟩ | h
  · rw [bind_assoc] at h
    obtain ⟨b, l2, rfl, hb, h⟩ := kw_sound h
    exact ⟨true, [a, b], l2, rfl, .yes ha hb, h⟩
  · exact ⟨false, [], l, rfl, .no, h⟩

theorem ic_sound {f : Bool → Prog β} (h : exec (if_cloud.bind f) l = some r) :
    ∃ e pre l', l = pre ++ l' ∧ IfCloud e pre ∧ exec (f e) l' = some r := by
  rw [if_cloud, bind_assoc] at h
  rcases ifKw_sound h with ⟨a, l1, rfl, ha, h⟩ | h
  · rw [bind_assoc] at h
    obtain ⟨b, l2, rfl, hb, h⟩ := kw_sound h
    exact ⟨true, [a, b], l2, rfl, .yes ha hb, h⟩
  · exact ⟨false, [], l, rfl, .no, h⟩

theorem debug_sound {f : Bool → Prog β} (h : exec ((ifKw "debug").bind f) l = some r) :
    ∃ e pre l', l = pre ++ l' ∧ Debug e pre ∧ exec (f e) l' = some r := by
  rcases ifKw_sound h with ⟨a, l1, rfl, ha, h⟩ | h
  · exact ⟨true, [a], l1, rfl, .yes ha, h⟩
  · exact ⟨false, [], l, rfl, .no, h⟩

theorem on_sound {f : Nat → Prog β} (h : exec (on_mask.bind f) l = some r) :
    ∃ e pre l', l = pre ++ l' ∧ On e pre ∧ exec (f e) l' = some r := by
  rw [on_mask, bind_assoc] at h
  rcases ifKw_sound h with ⟨a, l1, rfl, ha, h⟩ | h
  · rw [bind_assoc] at h
    rcases ifKw_sound h with ⟨b, l2, rfl, hb, h⟩ | h
    · exact ⟨1, [a, b], l2, rfl, .storage ha hb, h⟩
    · rw [bind_assoc] at h
      obtain ⟨b, l2, rfl, hb, h⟩ := kw_sound h
      exact ⟨8, [a, b], l2, rfl, .cloud ha hb, h⟩
  · exact ⟨9, [], l, rfl, .both, h⟩

theorem between_sound {f : Nat × Nat → Prog β} (h : exec (between.bind f) l = some r) :
    ∃ min max pre l', l = pre ++ l' ∧ Between min max pre ∧ exec (f (min, max)) l' = some r := by
  rw [between, bind_assoc] at h
  obtain ⟨a, l1, rfl, ha, h1⟩ := kw_sound h
  rw [bind_assoc] at h1
  obtain ⟨n, l2, rfl, h2⟩ := int_sound h1
  rw [bind_assoc] at h2
  obtain ⟨b, l3, rfl, hb, h3⟩ := kw_sound h2
  rw [bind_assoc] at h3
  obtain ⟨m, l4, rfl, h4⟩ := int_sound h3
  exact ⟨n, m, [a, .int n, b, .int m], l4, rfl, .mk ha hb, h4⟩

theorem end_sound {cmd c : Cmd} {l' : List Item} (h : exec (.lexIf isEof fun
    | some _ => .ret cmd
    | none => .fail "unexpected clause at the end of command") l = some (c, l')) : l = [] ∧ c = cmd ∧ l' = [] := by
  rcases eof_sound h with ⟨rfl, h⟩ | h
  · have := ret_sound h
    simp only [Prod.mk.injEq] at this
    exact ⟨rfl, this.1, this.2⟩
  · simp [exec] at h

end

/-- The parser of a whole command, after its first words. -/
def finish (p : Prog Cmd) : Prog Cmd := p.bind fun cmd => .lexIf isEof fun
  | some _ => .ret cmd
  | none => .fail "unexpected clause at the end of command"

theorem finish_bind {α : Type} (p : Prog α) (f : α → Prog Cmd) : finish (p.bind f) = p.bind fun a => finish (f a) := bind_assoc _ _ _

theorem finish_ret {cmd c : Cmd} {l l' : List Item} (h : exec (finish (.ret cmd)) l = some (c, l')) : l = [] ∧ c = cmd ∧ l' = [] :=
  end_sound h

theorem finish_fail {m : String} {l : List Item} {r : Cmd × List Item} (h : exec (finish (.fail m)) l = some r) : False := by
  simp [finish, Prog.bind, exec] at h

theorem choice_sound {cs : List (String × Prog Cmd)} {l : List Item} {r : Cmd × List Item}
    (h : exec (finish (choice cs)) l = some r) :
    ∃ n p a l', (n, p) ∈ cs ∧ l = a :: l' ∧ Kw n a ∧ exec (finish p) l' = some r := by
  induction cs with
  | nil => exact (finish_fail h).elim
  | cons c cs ih =>
    obtain ⟨n, p⟩ := c
    rw [choice, finish_bind] at h
    rcases ifKw_sound h with ⟨a, l', rfl, ha, h⟩ | h
    · exact ⟨n, p, a, l', by simp, rfl, ha, h⟩
    · obtain ⟨n', p', a, l', hm, rest⟩ := ih h
      exact ⟨n', p', a, l', by simp [hm], rest⟩

theorem tiers_sound : ∀ (fuel : Nat) (acc : List TierConfig) (l : List Item) (r : List TierConfig) (l' : List Item),
    exec (pipeline_set fuel acc) l = some (r, l') → l' = [] ∧ ∃ cs, r = acc ++ cs ∧ Tiers code cs l
  | 0, _, _, _, _, h => by simp [pipeline_set, exec] at h
  | fuel + 1, acc, l, r, l', h => by
    rw [pipeline_set] at h
    obtain ⟨s, a, l1, rfl, ha, h⟩ := name_sound h
    dsimp only at h
    rcases sym_sound h with ⟨l2, rfl, h2⟩ | h2
    · obtain ⟨rfl, cs, rfl, hc⟩ := tiers_sound fuel _ l2 r l' h2
      exact ⟨rfl, _, by rw [List.append_assoc]; rfl, .more ha hc⟩
    · rcases eof_sound h2 with ⟨rfl, h3⟩ | h3
      · have := ret_sound h3
        simp only [Prod.mk.injEq] at this
        obtain ⟨rfl, rfl⟩ := this
        exact ⟨rfl, _, rfl, .last ha⟩
      · rcases sym_sound h3 with ⟨l2, rfl, h4⟩ | h4
        · rcases sym_sound h4 with ⟨l3, rfl, h5⟩ | h5
          · obtain ⟨rfl, cs, rfl, hc⟩ := tiers_sound fuel _ l3 r l' h5
            exact ⟨rfl, _, by rw [List.append_assoc]; rfl, .nocomma rfl ha hc⟩
          · dsimp only at h5
            rw [exec_bind] at h5
            cases e : exec (optionLoop tierTable ["partitions"] (fuel + 1) { TierConfig.allocate with name := str s } 0) l2 with
            | none => rw [e] at h5; simp at h5
            | some p =>
              obtain ⟨⟨c, m⟩, l3⟩ := p
              rw [e] at h5
              simp only [Option.bind_some] at h5
              obtain ⟨pre, rfl, ho⟩ := optionLoop_sound tier_table _ _ _ _ _ _ e
              rcases sym_sound h5 with ⟨l4, rfl, h6⟩ | h6
              · obtain ⟨rfl, cs, rfl, hc⟩ := tiers_sound fuel _ l4 r l' h6
                exact ⟨rfl, _, by rw [List.append_assoc], by simpa using Tiers.moreOpts ha ho hc⟩
              · rcases eof_sound h6 with ⟨rfl, h7⟩ | h7
                · have := ret_sound h7
                  simp only [Prod.mk.injEq] at this
                  obtain ⟨rfl, rfl⟩ := this
                  exact ⟨rfl, _, rfl, by simpa using Tiers.lastOpts ha ho⟩
                · simp [exec] at h7
        · simp [exec] at h4

theorem showOp_sound {β : Type} {a : Item} {f : ShowType × Token → Prog β} {l : List Item} {r : β × List Item}
    (h : exec ((show_op (token a)).bind f) l = some r) :
    ∃ t k pre l', l = pre ++ l' ∧ (∀ d dl, (t = .config → d = false ∧ dl = []) → Debug d dl → ShowOps1 ⟨t, k, d⟩ (a :: pre ++ dl)) ∧
      (t = .config → NotKw "debug" l') ∧ exec (f (t, k)) l' = some r := by
  unfold show_op at h
  split at h
  · rename_i s e
    exact ⟨.memory, token a, [], l, rfl, fun d dl _ hd => .memory (kw_of_token e).1 hd, by simp, h⟩
  · rename_i s e
    exact ⟨.wal, token a, [], l, rfl, fun d dl _ hd => .wal (kw_of_token e).1 hd, by simp, h⟩
  · rename_i s e
    rw [bind_assoc] at h
    obtain ⟨n, b, l1, rfl, hb, h⟩ := name_sound h
    exact ⟨.clouds, .name n, [b], l1, rfl, fun d dl _ hd => .cloud (kw_of_token e).1 hb hd, by simp, h⟩
  · rename_i s e
    exact ⟨.clouds, token a, [], l, rfl, fun d dl _ hd => .clouds (kw_of_token e).1 hd, by simp, h⟩
  · rename_i s e
    rw [bind_assoc] at h
    obtain ⟨n, b, l1, rfl, hb, h⟩ := name_sound h
    exact ⟨.storages, .name n, [b], l1, rfl, fun d dl _ hd => .storage (kw_of_token e).1 hb hd, by simp, h⟩
  · rename_i s e
    exact ⟨.storages, token a, [], l, rfl, fun d dl _ hd => .storages (kw_of_token e).1 hd, by simp, h⟩
  · rename_i s e
    rw [bind_assoc] at h
    obtain ⟨n, l1, rfl, h⟩ := int_sound h
    exact ⟨.partition, .int n, [.int n], l1, rfl, fun d dl _ hd => .partition (kw_of_token e).1 hd, by simp, h⟩
  · rename_i s e
    cases l with
    | nil =>
      simp only [Prog.bind, exec, isName, Bool.false_eq_true, if_false] at h
      exact ⟨.partitions, token a, [], [], rfl, fun d dl _ hd => .partitions (kw_of_token e).1 hd, by simp, h⟩
    | cons b l =>
      simp only [Prog.bind, exec] at h
      by_cases hn : isName (token b) = true
      · rw [if_pos hn] at h
        obtain ⟨n, hn⟩ := isName_token hn
        rw [hn] at h
        exact ⟨.partitions, .name n, [b], l, rfl, fun d dl _ hd => .partitionsOf (kw_of_token e).1 (name_token.1 hn) hd, by simp, h⟩
      · rw [if_neg hn] at h
        exact ⟨.partitions, token a, [], b :: l, rfl, fun d dl _ hd => .partitions (kw_of_token e).1 hd, by simp, h⟩
  · rename_i s e
    exact ⟨.pipeline, token a, [], l, rfl, fun d dl _ hd => .pipeline (kw_of_token e).1 hd, by simp, h⟩
  all_goals first
    | (rename_i s e
       have hk : Kw "config" a ∨ Kw "all" a := by
         first
           | exact Or.inl (kw_of_token e).1
           | exact Or.inr (kw_of_token e).1
       cases l with
       | nil =>
         simp only [Prog.bind, exec, isString, Bool.false_eq_true, if_false] at h
         refine ⟨.config, token a, [], [], rfl, fun d dl hc hd => ?_, fun _ => notKw_nil _, h⟩
         obtain ⟨rfl, rfl⟩ := hc rfl
         exact .config hk
       | cons b l =>
         cases b with
         | word w =>
           simp only [Prog.bind, exec] at h
           exact ⟨.name, .name w, [.word w], l, rfl, fun d dl _ hd => .configOf hk hd, by simp, h⟩
         | int n => simp [Prog.bind, exec] at h
         | string w =>
           simp only [Prog.bind, exec, token, isString, if_true] at h
           exact ⟨.name, token (.string w), [.string w], l, rfl, fun d dl _ hd => .configStr hk hd, by simp, h⟩
         | symbol c =>
           simp only [Prog.bind, exec, token, isString, Bool.false_eq_true, if_false] at h
           refine ⟨.config, token a, [], _, rfl, fun d dl hc hd => ?_, fun _ => notKw_sym _ _ _, h⟩
           obtain ⟨rfl, rfl⟩ := hc rfl
           exact .config hk)
    | (rename_i s e
       refine ⟨.name, token a, [], l, rfl, fun d dl _ hd => ?_, by simp, h⟩
       rw [e]
       exact .name (name_token.1 e) hd)
    | (rename_i s esc e
       obtain ⟨w, rfl⟩ := isString_token (a := a) (by rw [e]; rfl)
       exact ⟨.name, token (.string w), [], l, rfl, fun d dl _ hd => .str hd, by simp, h⟩)
    | (simp [Prog.bind, exec] at h; done)

theorem show_sound : ∀ (fuel : Nat) (acc : List ShowOp) (l : List Item) (c : Cmd) (l' : List Item),
    exec (show_ fuel acc) l = some (c, l') → ∃ ops pre, l = pre ++ l' ∧ c = .show (acc ++ ops) ∧ ShowOps ops pre
  | 0, _, _, _, _, h => by simp [show_, exec] at h
  | fuel + 1, acc, l, c, l', h => by
    rw [show_] at h
    cases l with
    | nil => simp [exec, show_op, Prog.bind] at h
    | cons a l =>
      simp only [exec] at h
      obtain ⟨t, k, pre, l1, rfl, hop, hcfg, h1⟩ := showOp_sound h
      have h2 : ∃ d dl l2, l1 = dl ++ l2 ∧ Debug d dl ∧ (t = .config → d = false ∧ dl = []) ∧
          exec (.lexIf (isSym 44) fun
            | some _ => show_ fuel (acc ++ [{ type := t, name := k, debug := d }])
            | none => .ret (.show (acc ++ [{ type := t, name := k, debug := d }]))) l2 = some (c, l') := by
        by_cases ht : t = .config
        · rw [ifKw_no (hcfg ht)] at h1
          exact ⟨false, [], l1, rfl, .no, fun _ => ⟨rfl, rfl⟩, h1⟩
        · obtain ⟨d, dl, l2, e, hd, h2⟩ := debug_sound h1
          exact ⟨d, dl, l2, e, hd, fun hc => absurd hc ht, h2⟩
      obtain ⟨d, dl, l2, rfl, hd, hc, h3⟩ := h2
      have hone := hop d dl hc hd
      rcases sym_sound h3 with ⟨l3, rfl, h4⟩ | h4
      · obtain ⟨ops, pre', rfl, rfl, ho⟩ := show_sound fuel _ l3 c l' h4
        refine ⟨_ :: ops, _, ?_, by rw [List.append_assoc]; rfl, .more hone ho⟩
        simp
      · have := ret_sound h4
        simp only [Prod.mk.injEq] at this
        obtain ⟨rfl, rfl⟩ := this
        exact ⟨[_], _, by simp, rfl, .last hone⟩

end Verif.C58
