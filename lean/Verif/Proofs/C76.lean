import Verif.Proofs.C76Sim

/-! C76: the parsers. -/
namespace Verif.C76
open CmdMem Lex Parse

variable {fails : Nat → Bool} {h0 : Blocks}

theorem bind_ret {α : Type} (p : Prog α) : p.bind .ret = p := by
  induction p with
  | ret a => rfl
  | fail m => rfl
  | next k ih => simp only [Prog.bind]; congr 1; funext t; exact ih t
  | lexIf p k ih => simp only [Prog.bind]; congr 1; funext t; exact ih t
  | lexIfName k ih => simp only [Prog.bind]; congr 1; funext t; exact ih t

/-- A parser has made a command. -/
def Made (a : Cmd × Ptr) (b : Cmd) (s : State) : Prop :=
  a.1 = b ∧ ∃ sh, At fails h0 (cmdOwn a.2 sh) [] s

theorem sim_plain (p : Prog Cmd) : Sim fails h0 p (plain p) (At fails h0 [] []) (Made (fails := fails) (h0 := h0)) := by
  have := Sim.lift_then (fails := fails) (h0 := h0) (p := p) (gs := []) (f := .ret)
    (g := fun cmd => (cmd_allocate .null).bind fun k => .ret (cmd, k)) (R := Made (fails := fails) (h0 := h0))
    fun b => Sim.op (op_malloc _) fun k => Sim.ret fun s hs => ⟨rfl, .null, hs⟩
  rwa [bind_ret] at this

theorem sim_guarded {fn : FreeFn} (p : Prog Cmd) (x : Ptr → M Cmd) (sh0 : Shape) (hb : sh0.block = .cmd fn none [])
    (hr : sh0.rest = [])
    (h : ∀ k, Sim fails h0 p (x k) (At fails h0 [] [.cmd k sh0]) (fun a b s => a = b ∧ ∃ sh, At fails h0 [] [.cmd k sh] s)) :
    Sim fails h0 p (guarded fn x) (At fails h0 [] []) (Made (fails := fails) (h0 := h0)) := by
  unfold guarded cmd_allocate
  refine Sim.op (op_malloc _) fun k => Sim.op (Q := fun _ => At fails h0 [] [.cmd k sh0]) ?_ fun _ => ?_
  · have := op_guard (fails := fails) (h0 := h0) (gs := []) (.cmd k sh0)
    simp only [Owned.blocks, cmdOwn, hb, hr] at this
    exact this
  · have := Sim.bind (h k) (f := .ret) (g := fun cmd => M.unguard.bind fun _ => .ret (cmd, k))
      (R := Made (fails := fails) (h0 := h0)) fun a b => by
        refine Sim.fact fun e => Sim.pre fun sh => ?_
        subst e
        exact Sim.op (op_unguard _) fun _ => Sim.ret fun s hs => ⟨rfl, sh, hs⟩
    rwa [bind_ret] at this

section options
variable {c : Ptr} {mk : List (Option Ptr) → List Owned} {rest : Blocks}

/-- What the branches of a chain of options keep. -/
structure Keeps {σ : Type} (table : List (Opt σ)) (slot : String → Option Nat) (I : σ → List (Option Ptr) → Prop) : Prop where
  step : ∀ o ∈ table, ∀ v x v' strs, x ≠ .string [] → I v strs → o.set v x = some v' →
    (slot o.name = none → I v' strs) ∧ ∀ i p, slot o.name = some i → I v' (strs.set i (some p))
  len : ∀ o ∈ table, ∀ i v strs, slot o.name = some i → I v strs → i < strs.length

theorem sim_optionLoop {σ : Type} {table : List (Opt σ)} {slot : String → Option Nat} (words : List String)
    {I : σ → List (Option Ptr) → Prop} (hh : Holder c mk rest) (hk : Keeps table slot I) (fuel : Nat) : ∀ v mask strs, I v strs →
    Sim fails h0 (Parse.optionLoop table words fuel v mask) (optionLoop table words slot c fuel v mask) (At fails h0 [] (mk strs))
      (fun a b s => a = b ∧ ∃ strs, I b.1 strs ∧ At fails h0 [] (mk strs) s) := by
  induction fuel with
  | zero => intro v mask strs _; exact Sim.throw
  | succ fuel ih =>
    intro v mask strs hI
    rw [CmdMem.optionLoop]
    refine Sim.lift_then (p := .next .ret) fun t => ?_
    cases optionName words t with
    | none => exact Sim.throw
    | some s =>
      dsimp only
      cases hf : table.find? fun o => bytes o.name == s with
      | none => exact Sim.throw
      | some o =>
        have ho := List.mem_of_find?_eq_some hf
        dsimp only
        refine Sim.lift_bind (fun x => x ≠ .string []) (fun l b l' => value_filled) fun x hx => ?_
        have hs : Op fails h0 (store slot c o.name) (At fails h0 [] (mk strs)) (fun _ s => ∃ strs',
            (∀ v', o.set v x = some v' → I v' strs') ∧ At fails h0 [] (mk strs') s) := by
          unfold store
          cases hslot : slot o.name with
          | none => exact Op.ret fun s hs => ⟨strs, fun v' e => (hk.step o ho v x v' strs hx hI e).1 hslot, hs⟩
          | some i =>
            intro s hs
            rcases op_set_str hh (hk.len o ho i v strs hslot hI) s hs with hf | ⟨a, s', e, hl, p, hq⟩
            · exact .inl hf
            · exact .inr ⟨a, s', e, hl, _, fun v' e => (hk.step o ho v x v' strs hx hI e).2 i p hslot, hq⟩
        refine Sim.op hs fun _ => Sim.pre fun strs' => Sim.fact fun hI' => ?_
        cases hset : o.set v x with
        | none => exact Sim.throw
        | some v' =>
          dsimp only
          refine Sim.lift_then (p := .lexIf (isSym 44) .ret) fun t => ?_
          cases t with
          | some t => exact ih v' _ strs' (hI' v' hset)
          | none =>
            refine Sim.lift_then (p := .lexIf (isSym 41) .ret) fun t => ?_
            cases t with
            | some t => exact Sim.ret fun s hs => ⟨rfl, strs', hI' v' hset, hs⟩
            | none => exact Sim.throw

theorem sim_options {σ : Type} {table : List (Opt σ)} {slot : String → Option Nat} (words : List String)
    {I : σ → List (Option Ptr) → Prop} (hh : Holder c mk rest) (hk : Keeps table slot I) (fuel : Nat) (v : σ)
    (strs : List (Option Ptr)) (hI : I v strs) :
    Sim fails h0 (Parse.options table words fuel v) (options table words slot c fuel v) (At fails h0 [] (mk strs))
      (fun a b s => a = b ∧ ∃ strs, I b.1 strs ∧ At fails h0 [] (mk strs) s) := by
  unfold CmdMem.options
  refine Sim.lift_then (p := .lexIf (isSym 40) .ret) fun t => ?_
  cases t with
  | none => exact Sim.ret fun s hs => ⟨rfl, strs, hI, hs⟩
  | some t =>
    refine Sim.lift_then (p := .lexIf (isSym 41) .ret) fun t => ?_
    cases t with
    | some t => exact Sim.ret fun s hs => ⟨rfl, strs, hI, hs⟩
    | none => exact sim_optionLoop words hh hk fuel v 0 strs hI

end options

/-- The Str fields of a cloud. -/
def ICloud (_ : CloudConfig) (strs : List (Option Ptr)) : Prop := strs.length = 5

/-- The Str fields of a storage: a key that is allocated is not empty. -/
def IStorage (v : Source) (strs : List (Option Ptr)) : Prop :=
  strs.length = 6 ∧ ∀ p, strs[5]? = some (some p) → v.encryption_key ≠ []

theorem keeps_cloud : Keeps cloudTable cloudSlot ICloud := by
  refine ⟨fun o ho v x v' strs _ hI _ => ⟨fun _ => hI, fun i p _ => by rw [ICloud, List.length_set]; exact hI⟩, ?_⟩
  intro o ho i v strs hs hI
  rw [hI]
  unfold cloudSlot at hs
  grind

theorem keeps_tier : Keeps tierTable (fun _ => none) (fun _ _ => True) :=
  ⟨fun _ _ _ _ _ _ _ _ _ => ⟨fun _ => trivial, fun _ _ _ => trivial⟩, fun _ _ _ _ _ h => by cases h⟩

theorem keeps_storage : Keeps storageTable storageSlot IStorage := by
  constructor
  · intro o ho v x v' strs hx hI e
    have key : o.name ≠ "encryption_key" → v'.encryption_key = v.encryption_key := by
      intro hn
      simp only [storageTable, List.mem_cons, List.not_mem_nil, or_false] at ho
      rcases ho with rfl | rfl | rfl | rfl | rfl | rfl | rfl | rfl | rfl | rfl | rfl | rfl
      all_goals
        dsimp only at e hn
        cases x <;> dsimp only at e <;> try cases e
        all_goals first
          | rfl
          | (simp only [Option.map_eq_some_iff] at e; obtain ⟨u, _, rfl⟩ := e; rfl)
          | (split at e <;> cases e <;> rfl)
          | exact absurd rfl hn
    constructor
    · intro hn
      have : o.name ≠ "encryption_key" := by
        intro h
        rw [h] at hn
        revert hn
        decide
      refine ⟨hI.1, fun p hp => ?_⟩
      rw [key this]
      exact hI.2 p hp
    · intro i p hi
      refine ⟨by rw [List.length_set]; exact hI.1, fun q hq => ?_⟩
      by_cases hn : o.name = "encryption_key"
      · simp only [storageTable, List.mem_cons, List.not_mem_nil, or_false] at ho
        rcases ho with rfl | rfl | rfl | rfl | rfl | rfl | rfl | rfl | rfl | rfl | rfl | rfl
        all_goals try (exact absurd hn (by decide))
        dsimp only at e
        cases x with
        | string s =>
          dsimp only at e
          split at e
          · cases e
          · cases e
            dsimp only
            intro h
            apply hx
            cases s with
            | nil => rfl
            | cons a s => simp [str] at h
        | bool b => cases e
        | int i => cases e
      · rw [key hn]
        have h5 : i ≠ 5 := by
          rintro rfl
          unfold storageSlot at hi
          grind
        rw [List.getElem?_set, if_neg h5] at hq
        exact hI.2 q hq
  · intro o ho i v strs hs hI
    rw [hI.1]
    unfold storageSlot at hs
    grind

theorem sim_named_config {k : Ptr} {n : Nat} (hn : 0 < n) {α β : Type} {p : Prog β} {g : Ptr → M α} {R : α → β → State → Prop}
    (h : ∀ c q, Sim fails h0 p (g c) (At fails h0 [] [.cmd k (.config (some (c, (List.replicate n none).set 0 (some q))))]) R) :
    Sim fails h0 p ((named_config k n).bind g) (At fails h0 [] [.cmd k (.config none)]) R := by
  have ho : Op fails h0 (named_config k n) (At fails h0 [] [.cmd k (.config none)]) (fun c s => ∃ q,
      At fails h0 [] [.cmd k (.config (some (c, (List.replicate n none).set 0 (some q))))] s) := by
    have hs : strOwn (List.replicate n none) = [] := by
      clear hn h
      induction n with
      | zero => rfl
      | succ n ih => rw [List.replicate_succ]; exact ih
    refine Op.bind (op_malloc _) fun c => Op.bind (Q := fun _ => At fails h0 []
      [.cmd k (.config (some (c, List.replicate n none)))]) ?_ fun _ =>
      Op.bind (op_set_str (holder_cmd k c) (by simpa using hn)) fun _ => Op.ret fun s hs => hs
    have := op_set_config (fails := fails) (h0 := h0) (k := k) (c := c) (strs := List.replicate n none)
    simp only [cfgOwn, hs] at this
    exact this
  exact Sim.op ho fun c => Sim.pre fun q => h c q

theorem sim_cloud_create (fuel : Nat) :
    Sim fails h0 (Parse.cloud_create fuel) (cloud_create fuel) (At fails h0 [] []) (Made (fails := fails) (h0 := h0)) := by
  refine sim_guarded _ _ (.config none) rfl rfl fun k => ?_
  have e : Parse.cloud_create fuel = (if_not_exists.bind fun ine => name.bind fun n => Prog.ret (ine, n)).bind fun r =>
    (Parse.options cloudTable ["cloud", "debug"] fuel { CloudConfig.allocate with name := str r.2 }).bind fun x =>
    .ret (.cloudCreate r.1 x.1) := by
    rw [C58.bind_assoc]
    simp only [C58.bind_assoc]
    rfl
  rw [e]
  refine Sim.lift_then fun r => ?_
  obtain ⟨ine, n⟩ := r
  refine sim_named_config (by decide) fun c q => ?_
  refine Sim.bind (sim_options _ (holder_cmd k c) keeps_cloud fuel _ _ (by simp [ICloud])) fun a b => ?_
  refine Sim.fact fun e => Sim.pre fun strs => Sim.fact fun _ => ?_
  subst e
  exact Sim.ret fun s hs => ⟨rfl, _, hs⟩

theorem sim_cloud_alter (fuel : Nat) :
    Sim fails h0 (Parse.cloud_alter fuel) (cloud_alter fuel) (At fails h0 [] []) (Made (fails := fails) (h0 := h0)) := by
  refine sim_guarded _ _ (.config none) rfl rfl fun k => ?_
  have e : Parse.cloud_alter fuel = (if_exists.bind fun ie => name.bind fun n => (ifKw "rename").bind fun b =>
      Prog.ret (ie, n, b)).bind fun
    | (ie, n, true) => (ifKw "to").bind fun _ => name.bind fun m => .ret (.cloudRename ie n m)
    | (ie, n, false) => (ifKw "set").bind fun
      | true =>
        (Parse.options cloudTable ["cloud", "debug"] fuel { CloudConfig.allocate with name := str n }).bind fun r =>
        if r.2 &&& 2 > 0 then .fail "cloud type cannot be changed" else .ret (.cloudAlter ie n r.1 r.2)
      | false => .fail "'RENAME or SET' expected" := by
    rw [C58.bind_assoc]
    simp only [C58.bind_assoc]
    unfold Parse.cloud_alter
    congr 1; funext ie; congr 1; funext n; congr 1; funext b
    cases b <;> rfl
  rw [e]
  refine Sim.lift_then fun r => ?_
  obtain ⟨ie, n, b⟩ := r
  cases b with
  | true => exact (Sim.lift _ _).mono (fun _ h => h) fun a b s h => ⟨h.1, _, h.2⟩
  | false =>
    refine Sim.lift_then fun b => ?_
    cases b with
    | false => exact Sim.throw
    | true =>
      refine sim_named_config (by decide) fun c q => ?_
      refine Sim.bind (sim_options _ (holder_cmd k c) keeps_cloud fuel _ _ (by simp [ICloud])) fun a b => ?_
      refine Sim.fact fun e => Sim.pre fun strs => Sim.fact fun _ => ?_
      subst e
      split
      · exact Sim.throw
      · exact Sim.ret fun s hs => ⟨rfl, _, hs⟩

theorem sim_storage_alter (fuel : Nat) :
    Sim fails h0 (Parse.storage_alter fuel) (storage_alter fuel) (At fails h0 [] []) (Made (fails := fails) (h0 := h0)) := by
  refine sim_guarded _ _ (.config none) rfl rfl fun k => ?_
  have e : Parse.storage_alter fuel = (if_exists.bind fun ie => name.bind fun n => (ifKw "rename").bind fun b =>
      Prog.ret (ie, n, b)).bind fun
    | (ie, n, true) => (ifKw "to").bind fun _ => name.bind fun m => .ret (.storageRename ie n m)
    | (ie, n, false) => (ifKw "set").bind fun
      | true =>
        (Parse.options storageTable ["cloud"] fuel { Source.allocate with name := str n }).bind fun r =>
        if r.2 &&& 1 > 0 then .fail "storage uuid cannot be changed this way" else .ret (.storageAlter ie n r.1 r.2)
      | false => .fail "'RENAME or SET' expected" := by
    rw [C58.bind_assoc]
    simp only [C58.bind_assoc]
    unfold Parse.storage_alter
    congr 1; funext ie; congr 1; funext n; congr 1; funext b
    cases b <;> rfl
  rw [e]
  refine Sim.lift_then fun r => ?_
  obtain ⟨ie, n, b⟩ := r
  cases b with
  | true => exact (Sim.lift _ _).mono (fun _ h => h) fun a b s h => ⟨h.1, _, h.2⟩
  | false =>
    refine Sim.lift_then fun b => ?_
    cases b with
    | false => exact Sim.throw
    | true =>
      refine sim_named_config (by decide) fun c q => ?_
      refine Sim.bind (sim_options _ (holder_cmd k c) keeps_storage fuel _ _ ⟨by simp, ?_⟩) fun a b => ?_
      · intro p hp
        rw [List.getElem?_set] at hp
        simp at hp
      refine Sim.fact fun e => Sim.pre fun strs => Sim.fact fun _ => ?_
      subst e
      split
      · exact Sim.throw
      · exact Sim.ret fun s hs => ⟨rfl, _, hs⟩

theorem sim_storage_create (env : Env) (fuel : Nat) :
    Sim fails h0 (Parse.storage_create env fuel) (storage_create env fuel) (At fails h0 [] []) (Made (fails := fails) (h0 := h0)) := by
  refine sim_guarded _ _ (.config none) rfl rfl fun k => ?_
  have e : Parse.storage_create env fuel = (if_not_exists.bind fun ine => name.bind fun n => Prog.ret (ine, n)).bind fun r =>
    (Parse.options storageTable ["cloud"] fuel (if env.compression = [] then { Source.allocate with name := str r.2, uuid := env.uuid }
      else { Source.allocate with
        name := str r.2, uuid := env.uuid, compression := env.compression, compression_level := env.compressionLevel })).bind fun x =>
    if encryptionOf x.1.encryption ≠ 0 ∧ x.1.encryption_key = [] then
      .ret (.storageCreate r.1 { x.1 with encryption_key := env.key })
    else .ret (.storageCreate r.1 x.1) := by
    rw [C58.bind_assoc]
    simp only [C58.bind_assoc]
    rfl
  rw [e]
  refine Sim.lift_then fun r => ?_
  obtain ⟨ine, n⟩ := r
  refine sim_named_config (by decide) fun c q => ?_
  dsimp only
  have hc : Op fails h0 (if env.compression = [] then M.ret () else set_str c 3)
      (At fails h0 [] [.cmd k (.config (some (c, (List.replicate 6 none).set 0 (some q))))])
      (fun _ s => ∃ strs, (strs.length = 6 ∧ strs[5]? = some none) ∧ At fails h0 [] [.cmd k (.config (some (c, strs)))] s) := by
    split
    · exact Op.ret fun s hs => ⟨_, ⟨by simp, rfl⟩, hs⟩
    · intro s hs
      rcases op_set_str (holder_cmd k c) (i := 3) (by simp) s hs with hf | ⟨a, s', e, hl, p, hq⟩
      · exact .inl hf
      · exact .inr ⟨a, s', e, hl, _, ⟨by simp, rfl⟩, hq⟩
  refine Sim.op hc fun _ => Sim.pre fun strs => Sim.fact fun hst => ?_
  refine Sim.bind (sim_options _ (holder_cmd k c) keeps_storage fuel _ strs ⟨hst.1, ?_⟩) fun a b => ?_
  · intro p hp
    rw [hst.2] at hp
    cases hp
  refine Sim.fact fun e => Sim.pre fun strs => Sim.fact fun hI => ?_
  subst e
  split
  · rename_i hkey
    have h5 : strs[5]? = some none := by
      cases h : strs[5]? with
      | none => rw [List.getElem?_eq_none_iff] at h; have := hI.1; omega
      | some o =>
        cases o with
        | none => rfl
        | some p => exact absurd hkey.2 (hI.2 p h)
    exact Sim.op (op_str_strndup (holder_cmd k c) h5) fun _ => Sim.pre fun p => Sim.ret fun s hs => ⟨rfl, _, hs⟩
  · exact Sim.ret fun s hs => ⟨rfl, _, hs⟩

theorem sim_pipeline_set (k : Ptr) (fuel : Nat) : ∀ list ts,
    Sim fails h0 (Parse.pipeline_set fuel list) (pipeline_set k fuel list) (At fails h0 [] [.cmd k (.pipeline ts)])
      (fun a b s => a = b ∧ ∃ ts, At fails h0 [] [.cmd k (.pipeline ts)] s) := by
  induction fuel with
  | zero => intro list ts; exact Sim.throw
  | succ fuel ih =>
    intro list ts
    rw [CmdMem.pipeline_set]
    refine Sim.lift_then fun n => ?_
    dsimp only
    refine Sim.op (op_malloc _) fun c => Sim.op (op_guard (.tier c [none])) fun _ => ?_
    refine Sim.op (op_set_str (holder_tier c _) (strs := [none]) (i := 0) (by decide)) fun _ => Sim.pre fun q => ?_
    have ha : ∀ {α β : Type} {p : Prog β} {g : Unit → M α} {strs : List (Option Ptr)} {R : α → β → State → Prop},
        (∀ ts, Sim fails h0 p (g ()) (At fails h0 [] [.cmd k (.pipeline ts)]) R) →
        Sim fails h0 p (M.unguard.bind fun _ => (add k c).bind g)
          (At fails h0 [] (Owned.tier c strs :: [.cmd k (.pipeline ts)])) R := fun h =>
      Sim.op (op_unguard _) fun _ => Sim.op op_add_tier fun _ => h _
    refine Sim.lift_then (p := .lexIf (isSym 44) .ret) fun t => ?_
    cases t with
    | some t => exact ha fun ts => ih _ ts
    | none =>
      refine Sim.lift_then (p := .lexIf isEof .ret) fun t => ?_
      cases t with
      | some t => exact ha fun ts => Sim.ret fun s hs => ⟨rfl, _, hs⟩
      | none =>
        refine Sim.lift_then (p := .lexIf (isSym 40) .ret) fun t => ?_
        cases t with
        | none => exact Sim.throw
        | some t =>
          refine Sim.lift_then (p := .lexIf (isSym 41) .ret) fun t => ?_
          cases t with
          | some t => exact ha fun ts => ih _ ts
          | none =>
            refine Sim.bind (sim_optionLoop _ (holder_tier c _) keeps_tier (fuel + 1) _ _ _ trivial) fun a b => ?_
            refine Sim.fact fun e => Sim.pre fun strs => Sim.fact fun _ => ?_
            subst e
            refine ha fun ts => ?_
            refine Sim.lift_then (p := .lexIf (isSym 44) .ret) fun t => ?_
            cases t with
            | some t => exact ih _ ts
            | none =>
              refine Sim.lift_then (p := .lexIf isEof .ret) fun t => ?_
              cases t with
              | some t => exact Sim.ret fun s hs => ⟨rfl, _, hs⟩
              | none => exact Sim.throw

theorem sim_pipeline_alter (fuel : Nat) :
    Sim fails h0 (Parse.pipeline_alter fuel) (pipeline_alter fuel) (At fails h0 [] []) (Made (fails := fails) (h0 := h0)) := by
  refine sim_guarded _ _ (.pipeline []) rfl rfl fun k => ?_
  refine Sim.lift_then fun b => ?_
  cases b with
  | true => exact Sim.ret fun s hs => ⟨rfl, _, hs⟩
  | false =>
    refine Sim.lift_then fun _ => Sim.bind (sim_pipeline_set k fuel _ _) fun a b => ?_
    refine Sim.fact fun e => Sim.pre fun ts => ?_
    subst e
    exact Sim.ret fun s hs => ⟨rfl, _, hs⟩

theorem sim_show_loop (k : Ptr) (fuel : Nat) : ∀ ops ps,
    Sim fails h0 (Parse.show_ fuel ops) (show_loop k fuel ops) (At fails h0 [] [.cmd k (.show ps)])
      (fun a b s => a = b ∧ ∃ sh, At fails h0 [] [.cmd k sh] s) := by
  induction fuel with
  | zero => intro ops ps; exact Sim.throw
  | succ fuel ih =>
    intro ops ps
    have e : Parse.show_ (fuel + 1) ops = (Prog.next fun t => (show_op t).bind fun r => (ifKw "debug").bind fun d =>
        Prog.ret (r, d)).bind fun x =>
      .lexIf (isSym 44) fun
        | some _ => Parse.show_ fuel (ops ++ [{ type := x.1.1, name := x.1.2, debug := x.2 }])
        | none => .ret (.show (ops ++ [{ type := x.1.1, name := x.1.2, debug := x.2 }])) := by
      rw [Parse.show_]
      simp only [Prog.bind, C58.bind_assoc]
      rfl
    rw [e, show_loop]
    refine Sim.lift_then fun x => ?_
    obtain ⟨r, d⟩ := x
    refine Sim.op (op_malloc _) fun p => Sim.op op_add_op fun _ => ?_
    dsimp only
    refine Sim.lift_then (p := .lexIf (isSym 44) .ret) fun t => ?_
    cases t with
    | some t => exact ih _ _
    | none => exact Sim.ret fun s hs => ⟨rfl, _, hs⟩

theorem sim_show (fuel : Nat) :
    Sim fails h0 (Parse.show_ fuel []) (show_ fuel) (At fails h0 [] []) (Made (fails := fails) (h0 := h0)) :=
  sim_guarded _ _ (.show []) rfl rfl fun k => sim_show_loop k fuel [] []

theorem sim_guarded_plain (p : Prog Cmd) :
    Sim fails h0 p (guarded_plain p) (At fails h0 [] []) (Made (fails := fails) (h0 := h0)) :=
  sim_guarded _ _ .null rfl rfl fun _ => (Sim.lift p _).mono (fun _ h => h) fun _ _ _ h => ⟨h.1, _, h.2⟩

theorem sim_choice_nil :
    Sim fails h0 (Parse.choice []) (choice []) (At fails h0 [] []) (Made (fails := fails) (h0 := h0)) := Sim.throw

theorem sim_choice {n : String} {p : Prog Cmd} {x : M (Cmd × Ptr)} {l : List (String × Prog Cmd)} {l' : List (String × M (Cmd × Ptr))}
    (h1 : Sim fails h0 p x (At fails h0 [] []) (Made (fails := fails) (h0 := h0)))
    (h2 : Sim fails h0 (Parse.choice l) (choice l') (At fails h0 [] []) (Made (fails := fails) (h0 := h0))) :
    Sim fails h0 (Parse.choice ((n, p) :: l)) (choice ((n, x) :: l')) (At fails h0 [] []) (Made (fails := fails) (h0 := h0)) := by
  refine Sim.lift_then fun b => ?_
  cases b with
  | true => exact h1
  | false => exact h2

/-- What the switch of parse makes. -/
def Made' (a : Cmd × Option Ptr) (b : Cmd) (s : State) : Prop :=
  a.1 = b ∧ s.guards = [] ∧ s.mem.fails = fails ∧
  match a.2 with
  | none => Holds s.mem h0
  | some k => ∃ sh, Holds s.mem (cmdOwn k sh ++ h0)

theorem sim_some {p : Prog Cmd} {x : M (Cmd × Ptr)}
    (h : Sim fails h0 p x (At fails h0 [] []) (Made (fails := fails) (h0 := h0))) :
    Sim fails h0 p (x.bind fun r => .ret (r.1, some r.2)) (At fails h0 [] []) (Made' (fails := fails) (h0 := h0)) := by
  have := Sim.bind h (f := .ret) (g := fun r => M.ret (r.1, some r.2)) (R := Made' (fails := fails) (h0 := h0)) fun a b => by
    refine Sim.fact fun e => Sim.pre fun sh => ?_
    exact Sim.ret fun s hs => ⟨e, hs.1, hs.2.2, sh, hs.2.1⟩
  rwa [bind_ret] at this

theorem sim_command (env : Env) (fuel : Nat) (t : Token) :
    Sim fails h0 (Parse.command env fuel t) (command env fuel t) (At fails h0 [] []) (Made' (fails := fails) (h0 := h0)) := by
  unfold Parse.command CmdMem.command
  split
  · exact sim_some (sim_plain _)
  · exact sim_some (sim_show _)
  · exact sim_some (sim_plain _)
  · exact sim_some (sim_plain _)
  · exact sim_some (sim_plain _)
  · exact sim_some (sim_plain _)
  · exact sim_some (sim_choice (sim_cloud_create _) (sim_choice (sim_storage_create _ _) (sim_choice (sim_plain _) sim_choice_nil)))
  · exact sim_some (sim_choice (sim_guarded_plain _) (sim_choice (sim_guarded_plain _) (sim_choice (sim_plain _)
      (sim_choice (sim_plain _) sim_choice_nil))))
  · exact sim_some (sim_choice (sim_cloud_alter _) (sim_choice (sim_storage_alter _) (sim_choice (sim_pipeline_alter _) sim_choice_nil)))
  · exact sim_some (sim_choice (sim_plain _) (sim_choice (sim_plain _) sim_choice_nil))
  · exact sim_some (sim_choice (sim_plain _) (sim_choice (sim_plain _) sim_choice_nil))
  · exact sim_some (sim_choice (sim_plain _) (sim_choice (sim_plain _) sim_choice_nil))
  · exact sim_some (sim_choice (sim_plain _) (sim_choice (sim_plain _) sim_choice_nil))
  · exact Sim.ret fun s hs => ⟨rfl, hs.1, hs.2.2, hs.2.1⟩
  · dsimp only
    split
    all_goals first
      | exact Sim.throw
      | (exfalso; simp_all)

/-- The text up to the end of its command. -/
def upto (env : Env) (fuel : Nat) : Prog Cmd := (Prog.next .ret).bind (Parse.command env fuel)

theorem M_bind_assoc {α β γ : Type} (x : M α) (f : α → M β) (g : β → M γ) :
    (x.bind f).bind g = x.bind fun a => (f a).bind g := by
  funext s
  simp only [M.bind]
  cases x s <;> rfl

theorem parseProg_eq (env : Env) (fuel : Nat) : parseProg env fuel = (upto env fuel).bind fun cmd =>
    .lexIf isEof fun
      | some _ => .ret cmd
      | none => .fail "unexpected clause at the end of command" := by
  rw [upto, C58.bind_assoc]
  rfl

/-- What parse does when the command has been read. -/
def ending (r : Cmd × Option Ptr) : M (Cmd × Option Ptr) :=
  (M.lift (.lexIf isEof .ret)).bind fun
    | some _ => .ret r
    | none =>
      match r.2 with
      | none => M.throw_ "unexpected clause at the end of command"
      | some k => (M.mem fun m => cmd_free m k).bind fun _ =>
        M.throw_ "unexpected clause at the end of command"

theorem parse_eq (env : Env) (fuel : Nat) : CmdMem.parse env fuel =
    ((M.lift (.next .ret)).bind (CmdMem.command env fuel)).bind ending := by
  rw [M_bind_assoc]
  rfl

theorem sim_upto (env : Env) (fuel : Nat) :
    Sim fails h0 (upto env fuel) ((M.lift (.next .ret)).bind (CmdMem.command env fuel)) (At fails h0 [] [])
      (Made' (fails := fails) (h0 := h0)) := Sim.lift_then fun t => sim_command env fuel t

theorem ending_ok {r : Cmd × Option Ptr} {s : State} (h : Made' (fails := fails) (h0 := h0) r r.1 s)
    {o : Option Token} {l : Lex} (e : lexIf isEof s.lex = .ok (o, l)) :
    match o with
    | some _ => ending r s = .ok r { s with lex := l }
    | none => ∃ m, ending r s = .thrown "unexpected clause at the end of command" m ∧ Holds m h0 := by
  obtain ⟨_, h1, h2, h3⟩ := h
  obtain ⟨cmd, k⟩ := r
  dsimp only at h3 ⊢
  have hb : ending (cmd, k) s = (match o with
    | some _ => M.ret (cmd, k)
    | none =>
      match k with
      | none => M.throw_ "unexpected clause at the end of command"
      | some k => (M.mem fun m => cmd_free m k).bind fun _ =>
        M.throw_ "unexpected clause at the end of command" : M (Cmd × Option Ptr)) { s with lex := l } := by
    simp only [ending, M.lift, M.bind, M.lexer, e, M.ret]
    cases o <;> cases k <;> rfl
  rw [hb]
  cases o with
  | some t => rfl
  | none =>
    cases k with
    | none => exact ⟨s.mem, by simp only [M.throw_, h1, run_guards], h3⟩
    | some k =>
      obtain ⟨sh, h3⟩ := h3
      obtain ⟨m, e1, h4, _⟩ := cmd_free_ok h3
      exact ⟨m, by simp only [M.bind, M.mem, e1, M.throw_, h1, run_guards], h4⟩

theorem bind_thrown {α β : Type} {x : M α} {g : α → M β} {s : State} {e : String} {m : Mem} (h : x s = .thrown e m) :
    x.bind g s = .thrown e m := by rw [M.bind, h]

/-- parse with memory against parse without. -/
theorem parse_mem (env : Env) {text : List Nat} {m : Mem} (hc : C53.Calm text) (ht : Tidy text) (hn : NoEmpty text)
    (hm : Holds m h0) :
    Failed m.fails h0 (CmdMem.parse env (text.length + 1) ⟨Lex.start text, m, []⟩) ∨
    match Parse.parse env text with
    | .ok cmd => ∃ k s, CmdMem.parse env (text.length + 1) ⟨Lex.start text, m, []⟩ = .ok (cmd, k) s ∧
        Made' (fails := m.fails) (h0 := h0) (cmd, k) cmd s
    | .err e => ∃ m', CmdMem.parse env (text.length + 1) ⟨Lex.start text, m, []⟩ = .thrown e m' ∧ Holds m' h0
    | .abort _ => False
    | .ub _ => False := by
  have hJ : J (Lex.start text) := ⟨hn, by simp [Lex.start]⟩
  have hsafe := C58.run_safe (upto env (text.length + 1)) (start text) (C53.inv_start hc)
  have hsim := sim_upto (fails := m.fails) (h0 := h0) env (text.length + 1) ⟨Lex.start text, m, []⟩ hJ ⟨rfl, hm, rfl⟩
  rw [parse_eq]
  rcases hsim with hf | hr
  · exact .inl hf.bind
  · refine .inr ?_
    rw [Parse.parse, parseProg_eq, run_bind]
    cases he : (upto env (text.length + 1)).run (Lex.start text) with
    | err e =>
      rw [he] at hr
      obtain ⟨m', e1, h1⟩ := hr
      exact ⟨m', bind_thrown e1, h1⟩
    | abort w => rw [he] at hsafe; exact absurd rfl (hsafe.1.1 w)
    | ub w => rw [he] at hsafe; exact absurd rfl (hsafe.1.2 w)
    | ok r =>
      obtain ⟨cmd, l⟩ := r
      rw [he] at hr
      obtain ⟨a, s, e1, rfl, hq⟩ := hr
      have hcmd := hq.1
      subst hcmd
      have hfine := lexIf_fine isEof s.lex (run_tidy _ _ _ _ ht he)
      have hinv := run_inv _ _ _ _ (C53.inv_start hc) he
      have hpost := C53.lexIf_post isEof s.lex hinv
      have hb : (((M.lift (.next .ret)).bind (CmdMem.command env (text.length + 1))).bind ending)
          ⟨Lex.start text, m, []⟩ = ending a s := by rw [M.bind, e1]
      rw [hb]
      cases hl : lexIf isEof s.lex with
      | err e => exact absurd hl (hfine.1 e)
      | abort w => exact absurd hl (hpost.1.1 w)
      | ub w => exact absurd hl (hpost.1.2 w)
      | ok o =>
        obtain ⟨o, l⟩ := o
        have := ending_ok hq hl
        simp only [Res.bind_ok, Prog.run, hl]
        cases o with
        | some t => exact ⟨a.2, _, this, rfl, hq.2.1, hq.2.2.1, hq.2.2.2⟩
        | none => exact this

/-- A text that is refused while its command is read. -/
theorem upto_mem (env : Env) {text : List Nat} {m : Mem} {e : String} (hn : NoEmpty text) (hm : Holds m h0)
    (he : (upto env (text.length + 1)).run (Lex.start text) = .err e) :
    ∃ e m', CmdMem.parse env (text.length + 1) ⟨Lex.start text, m, []⟩ = .thrown e m' ∧ Holds m' h0 := by
  have hJ : J (Lex.start text) := ⟨hn, by simp [Lex.start]⟩
  have hsim := sim_upto (fails := m.fails) (h0 := h0) env (text.length + 1) ⟨Lex.start text, m, []⟩ hJ ⟨rfl, hm, rfl⟩
  rw [parse_eq]
  rcases hsim with ⟨_, e, m', e1, h1⟩ | hr
  · exact ⟨e, m', bind_thrown e1, h1⟩
  · dsimp only at hr
    rw [he] at hr
    obtain ⟨m', e1, h1⟩ := hr
    exact ⟨e, m', bind_thrown e1, h1⟩

/-- The command is executed. -/
theorem finish_ok (exec : Exec) (want : Bool) (cmd : Cmd) (k : Ptr) {m : Mem} {sh : Shape}
    (h : Holds m (cmdOwn k sh ++ h0)) :
    Balanced h0 (finish exec want cmd k m) ∧
    ((∀ n, m.fails n = false) → exec.throws = false →
      ∃ r m', finish exec want cmd k m = .done cmd r m' ∧ r.isSome = (want && exec.output)) := by
  obtain ⟨out, throws⟩ := exec
  cases out with
  | false =>
    obtain ⟨m1, e1, h1, s1⟩ := cmd_free_ok h
    simp only [finish, Bool.false_and, Bool.or_false, Bool.and_false, Bool.false_eq_true, if_false, e1]
    cases throws with
    | true => exact ⟨h1.perm, by simp⟩
    | false => exact ⟨h1.perm, fun _ _ => ⟨none, m1, rfl, rfl⟩⟩
  | true =>
    cases hf : m.fails m.next with
    | true =>
      obtain ⟨m1, e1, h1, s1⟩ := cmd_free_ok h.tick
      simp only [finish, hf, Bool.true_and, Bool.or_true, Bool.not_true, Bool.and_true, Bool.false_eq_true, if_false, if_true, e1]
      exact ⟨h1.perm, fun g => by rw [g] at hf; cases hf⟩
    | false =>
      have ho : Holds { m with next := m.next + 1, live := (m.next, .chars) :: m.live } (cmdOwn k sh ++ (m.next, .chars) :: h0) :=
        (h.malloc .chars).reorder List.perm_middle.symm
      obtain ⟨m1, e1, h1, s1⟩ := cmd_free_ok ho
      obtain ⟨m2, e2, h2, s2⟩ := h1.free
      obtain ⟨m3, e3, h3, s3⟩ := h1.tick.free
      simp only [finish, hf, Bool.true_and, Bool.or_false, Bool.not_false, Bool.and_true, Bool.false_eq_true, if_false, if_true, e1]
      cases throws with
      | true => simp only [if_true, e2]; exact ⟨h2.perm, by simp⟩
      | false =>
        simp only [Bool.false_eq_true, if_false]
        cases want with
        | false => simp only [Bool.false_eq_true, if_false, e2]; exact ⟨h2.perm, fun _ _ => ⟨none, m2, rfl, rfl⟩⟩
        | true =>
          simp only [if_true]
          split
          · rename_i hf2
            rw [e3]
            refine ⟨h3.perm, fun g => ?_⟩
            rw [s1.2] at hf2
            simp only [g] at hf2
            cases hf2
          · exact ⟨⟨_, h1.perm⟩, fun _ _ => ⟨some m.next, _, rfl, rfl⟩⟩

end Verif.C76
