import Verif.Proofs.ParseComplete

/-! C58: the shape of the parsers, and numbers in a row. -/
namespace Verif.C58
open Lex Parse

/-! ### lex_if_name -/

theorem nn_ifKw (n : String) : NoName (ifKw n) := by intro t _; trivial
theorem nn_kw (n : String) : NoName (kw n) := by intro t _; cases t <;> trivial
theorem nn_int : NoName int := by intro t _; dsimp only; split <;> trivial
theorem nn_name : NoName name := by intro t _; dsimp only; split <;> trivial
theorem nn_string : NoName string := by intro t _; dsimp only; split <;> trivial

theorem nn_ine : NoName if_not_exists := (nn_ifKw _).bind fun b => by
  cases b with
  | true => exact (nn_kw _).bind fun _ => (nn_kw _).bind fun _ => trivial
  | false => trivial

theorem nn_ie : NoName if_exists := (nn_ifKw _).bind fun b => by
  cases b with
  | true => exact (nn_kw _).bind fun _ => trivial
  | false => trivial

theorem nn_ic : NoName if_cloud := (nn_ifKw _).bind fun b => by
  cases b with
  | true => exact (nn_kw _).bind fun _ => trivial
  | false => trivial

theorem nn_value (k : Kind) : NoName (value k) := by
  cases k with
  | string => exact nn_string.bind fun _ => trivial
  | int => exact nn_int.bind fun _ => trivial
  | bool =>
    refine (nn_ifKw _).bind fun b => ?_
    cases b with
    | true => trivial
    | false => exact (nn_kw _).bind fun _ => trivial

theorem nn_loop {σ : Type} (table : List (Opt σ)) (words : List String) : ∀ fuel c m, NoName (optionLoop table words fuel c m)
  | 0, _, _ => trivial
  | fuel + 1, c, m => by
    rw [optionLoop]
    intro t
    dsimp only
    cases optionName words t with
    | none => trivial
    | some s =>
      dsimp only
      cases table.find? (fun o => bytes o.name == s) with
      | none => trivial
      | some o =>
        refine (nn_value _).bind fun v => ?_
        cases o.set c v with
        | none => trivial
        | some c =>
          intro t _
          cases t with
          | some _ => exact nn_loop table words fuel _ _
          | none =>
            intro t _
            cases t <;> trivial

theorem nn_options {σ : Type} (table : List (Opt σ)) (words : List String) (fuel : Nat) (c : σ) :
    NoName (options table words fuel c) := by
  intro t _
  cases t with
  | none => trivial
  | some _ =>
    intro t _
    cases t with
    | some _ => trivial
    | none => exact nn_loop _ _ _ _ _

theorem nn_tiers : ∀ fuel acc, NoName (pipeline_set fuel acc)
  | 0, _ => trivial
  | fuel + 1, acc => by
    rw [pipeline_set]
    refine nn_name.bind fun n => ?_
    intro t _
    cases t with
    | some _ => exact nn_tiers fuel _
    | none =>
      intro t _
      cases t with
      | some _ => trivial
      | none =>
        intro t _
        cases t with
        | none => trivial
        | some _ =>
          intro t _
          cases t with
          | some _ => exact nn_tiers fuel _
          | none =>
            refine (nn_loop _ _ _ _ _).bind fun r => ?_
            intro t _
            cases t with
            | some _ => exact nn_tiers fuel _
            | none =>
              intro t _
              cases t <;> trivial

theorem nn_on : NoName on_mask := (nn_ifKw _).bind fun b => by
  cases b with
  | false => trivial
  | true =>
    refine (nn_ifKw _).bind fun b => ?_
    cases b with
    | true => trivial
    | false => exact (nn_kw _).bind fun _ => trivial

theorem nn_between : NoName between :=
  (nn_kw _).bind fun _ => nn_int.bind fun _ => (nn_kw _).bind fun _ => nn_int.bind fun _ => trivial

theorem nn_choice {cs : List (String × Prog Cmd)} (h : ∀ c ∈ cs, NoName c.2) : NoName (choice cs) := by
  induction cs with
  | nil => trivial
  | cons c cs ih =>
    obtain ⟨n, p⟩ := c
    refine (nn_ifKw n).bind fun b => ?_
    cases b with
    | true => exact h (n, p) (by simp)
    | false => exact ih fun c hc => h c (by simp [hc])

theorem nn_end (cmd : Cmd) : NoName (.lexIf isEof fun
    | some _ => .ret cmd
    | none => .fail "unexpected clause at the end of command") := by
  intro t _; cases t <;> trivial

theorem nn_finish {p : Prog Cmd} (h : NoName p) : NoName (finish p) := h.bind nn_end

theorem nn_ite {c : Prop} [Decidable c] {p q : Prog Cmd} (h1 : NoName p) (h2 : NoName q) : NoName (if c then p else q) := by
  split <;> assumption

theorem wf_show : ∀ (fuel : Nat) (acc : List ShowOp) (f : Bool), Wf (finish (show_ fuel acc)) f
  | 0, _, _ => trivial
  | fuel + 1, acc, f => by
    -- what comes after one thing to show
    have rest : ∀ (t : ShowType) (k : Token) (f : Bool), Wf (finish ((ifKw "debug").bind fun d =>
        .lexIf (isSym 44) fun
          | some _ => show_ fuel (acc ++ [{ type := t, name := k, debug := d }])
          | none => .ret (.show (acc ++ [{ type := t, name := k, debug := d }])))) f := by
      intro t k f
      refine ⟨fun x _ => ?_, ?_⟩
      · refine ⟨fun y _ => wf_show fuel _ _, ?_⟩
        exact (nn_end _).wf _ _
      · refine ⟨fun y _ => wf_show fuel _ _, ?_⟩
        exact (nn_end _).wf _ _
    have hbind : ∀ {α : Type} (p : Prog α) (g : α → Prog Cmd) (f : Bool), NoName p → (∀ a f, Wf (finish (g a)) f) →
        Wf (finish (p.bind g)) f := by
      intro α p g f hp hg
      rw [finish_bind]
      induction p generalizing f with
      | ret a => exact hg a f
      | fail m => trivial
      | next k ih => intro t; exact ih t _ (hp t)
      | lexIf p k ih =>
        exact ⟨fun t ht => ih _ _ (hp _ (by intro t' e; cases e; exact ht)), ih _ _ (hp _ (by simp))⟩
      | lexIfName k ih => exact hp.elim
    rw [show_]
    intro t
    show Wf (finish ((show_op t).bind _)) _
    unfold show_op
    split
    · exact rest _ _ _
    · exact rest _ _ _
    · exact hbind _ _ _ (nn_name.bind fun _ => trivial) fun a f => rest _ _ _
    · exact rest _ _ _
    · exact hbind _ _ _ (nn_name.bind fun _ => trivial) fun a f => rest _ _ _
    · exact rest _ _ _
    · exact hbind _ _ _ (nn_int.bind fun _ => trivial) fun a f => rest _ _ _
    · refine hbind _ _ _ ?_ fun a f => rest _ _ _
      intro t _
      cases t <;> trivial
    · exact rest _ _ _
    all_goals first
      | exact rest _ _ _
      | trivial
      | (refine ⟨rfl, fun s => rest _ _ _, ⟨fun x _ => rest _ _ _, rest _ _ _⟩, ?_⟩
         refine ⟨fun n => rfl, fun n => rfl, fun n => rfl, fun n => rfl, trivial⟩)

theorem wf_parse (env : Env) (fuel : Nat) (f : Bool) : Wf (parseProg env fuel) f := by
  intro t
  show Wf (finish (command env fuel t)) _
  unfold command
  split
  · -- set
    refine ⟨rfl, fun s => ?_, trivial, trivial⟩
    show Wf (finish ((kw "to").bind fun _ => .next fun v => .ret (.set s v))) true
    refine (nn_finish ((nn_kw _).bind fun _ => ?_)).wf _ _
    intro t; trivial
  · exact wf_show _ _ _
  · refine (nn_finish ?_).wf _ _
    exact nn_string.bind fun s => nn_ite trivial (nn_ite trivial (nn_ite trivial (nn_ite trivial trivial)))
  · exact (nn_end _).wf _ _
  · exact (nn_end _).wf _ _
  · exact (nn_end _).wf _ _
  · refine (nn_finish (nn_choice fun c hc => ?_)).wf _ _
    simp only [List.mem_cons, List.not_mem_nil, or_false] at hc
    rcases hc with rfl | rfl | rfl
    · exact nn_ine.bind fun _ => nn_name.bind fun _ => (nn_options _ _ _ _).bind fun _ => trivial
    · exact nn_ine.bind fun _ => nn_name.bind fun _ => (nn_options _ _ _ _).bind fun _ => nn_ite trivial trivial
    · refine nn_int.bind fun _ => ?_
      intro t _
      dsimp only
      split <;> trivial
  · refine (nn_finish (nn_choice fun c hc => ?_)).wf _ _
    simp only [List.mem_cons, List.not_mem_nil, or_false] at hc
    rcases hc with rfl | rfl | rfl | rfl
    · exact nn_ie.bind fun _ => nn_name.bind fun _ => trivial
    · exact nn_ie.bind fun _ => nn_name.bind fun _ => trivial
    · exact nn_ie.bind fun _ => nn_int.bind fun _ => nn_on.bind fun _ => trivial
    · exact nn_between.bind fun _ => nn_on.bind fun _ => trivial
  · refine (nn_finish (nn_choice fun c hc => ?_)).wf _ _
    simp only [List.mem_cons, List.not_mem_nil, or_false] at hc
    rcases hc with rfl | rfl | rfl
    · refine nn_ie.bind fun ie => nn_name.bind fun n => (nn_ifKw _).bind fun b => ?_
      cases b with
      | true => exact (nn_ifKw _).bind fun _ => nn_name.bind fun _ => trivial
      | false =>
        refine (nn_ifKw _).bind fun b => ?_
        cases b with
        | true => exact (nn_options _ _ _ _).bind fun _ => nn_ite trivial trivial
        | false => trivial
    · refine nn_ie.bind fun ie => nn_name.bind fun n => (nn_ifKw _).bind fun b => ?_
      cases b with
      | true => exact (nn_ifKw _).bind fun _ => nn_name.bind fun _ => trivial
      | false =>
        refine (nn_ifKw _).bind fun b => ?_
        cases b with
        | true => exact (nn_options _ _ _ _).bind fun _ => nn_ite trivial trivial
        | false => trivial
    · refine (nn_ifKw _).bind fun b => ?_
      cases b with
      | true => trivial
      | false => exact (nn_kw _).bind fun _ => (nn_tiers _ _).bind fun _ => trivial
  · refine (nn_finish (nn_choice fun c hc => ?_)).wf _ _
    simp only [List.mem_cons, List.not_mem_nil, or_false] at hc
    rcases hc with rfl | rfl
    · exact nn_ie.bind fun _ => nn_int.bind fun _ => (nn_kw _).bind fun _ => nn_name.bind fun _ => trivial
    · exact nn_between.bind fun _ => (nn_kw _).bind fun _ => nn_name.bind fun _ => trivial
  · refine (nn_finish (nn_choice fun c hc => ?_)).wf _ _
    simp only [List.mem_cons, List.not_mem_nil, or_false] at hc
    rcases hc with rfl | rfl
    · exact nn_ie.bind fun _ => nn_int.bind fun _ => trivial
    · exact nn_between.bind fun _ => trivial
  · refine (nn_finish (nn_choice fun c hc => ?_)).wf _ _
    simp only [List.mem_cons, List.not_mem_nil, or_false] at hc
    rcases hc with rfl | rfl
    · exact nn_ie.bind fun _ => nn_int.bind fun _ => nn_ic.bind fun _ => trivial
    · exact nn_between.bind fun _ => nn_ic.bind fun _ => trivial
  · refine (nn_finish (nn_choice fun c hc => ?_)).wf _ _
    simp only [List.mem_cons, List.not_mem_nil, or_false] at hc
    rcases hc with rfl | rfl
    · exact nn_ie.bind fun _ => nn_int.bind fun _ => nn_ic.bind fun _ => trivial
    · exact nn_between.bind fun _ => nn_ic.bind fun _ => trivial
  · exact (nn_end _).wf _ _
  · trivial

end Verif.C58
