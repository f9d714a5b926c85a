import Verif.Proofs.ParseWf

/-! C58: a command never has more than three numbers in a row. -/
namespace Verif.C58
open Lex Parse

def isI : Item → Bool
  | .int _ => true
  | _ => false

/-- No two numbers in a row. -/
def Alt : List Item → Prop
  | [] => True
  | [_] => True
  | a :: b :: l => ¬ (isI a = true ∧ isI b = true) ∧ Alt (b :: l)

theorem alt_cons {a : Item} {l : List Item} (ha : isI a = false) (h : Alt l) : Alt (a :: l) := by
  cases l with
  | nil => trivial
  | cons b l => exact ⟨by simp [ha], h⟩

theorem alt_tail {a : Item} {l : List Item} (h : Alt (a :: l)) : Alt l := by
  cases l with
  | nil => trivial
  | cons b l => exact h.2

/-- Lists joined at an item that is no number. -/
theorem alt_join {l1 : List Item} {a : Item} {l2 : List Item} (h1 : Alt l1) (ha : isI a = false) (h2 : Alt l2) :
    Alt (l1 ++ a :: l2) := by
  induction l1 with
  | nil => exact alt_cons ha h2
  | cons b l1 ih =>
    cases l1 with
    | nil => exact ⟨by simp [ha], alt_cons ha h2⟩
    | cons c l1 => exact ⟨h1.1, ih h1.2⟩

theorem alt_noRun : ∀ l, Alt l → NoRun l
  | [], _ => trivial
  | [a], _ => ⟨by cases a <;> simp [lead], trivial⟩
  | a :: b :: l, h => by
    refine ⟨?_, alt_noRun (b :: l) h.2⟩
    have := h.1
    cases a <;> cases b <;> simp_all [lead, isI]

theorem kw_isI {n : String} {a : Item} (h : Kw n a) : isI a = false := by
  obtain ⟨s, rfl, _⟩ := h; rfl

theorem name_isI {s : List Nat} {a : Item} (h : Name s a) : isI a = false := by rw [h.1]; rfl

theorem truth_isI {b : Bool} {a : Item} (h : Truth b a) : isI a = false := by
  cases h with
  | t h => exact kw_isI h
  | f h => exact kw_isI h

theorem opts_alt {σ : Type} {one : σ → List Nat → Item → σ → Nat → Prop} {c : σ} {m : Nat} {l : List Item} {c' : σ} {m' : Nat}
    (h : Opts one c m l c' m') : Alt l := by
  induction h with
  | last _ => exact ⟨by simp [isI], trivial⟩
  | more _ _ ih => exact ⟨by simp [isI], ⟨by simp [isI], alt_cons rfl ih⟩⟩

theorem options_alt {σ : Type} {one : σ → List Nat → Item → σ → Nat → Prop} {c : σ} {l : List Item} {c' : σ} {m' : Nat}
    (h : Options one c l c' m') : Alt l := by
  cases h with
  | none => trivial
  | empty => exact ⟨by simp [isI], trivial⟩
  | some h => exact alt_cons rfl (alt_join (opts_alt h) rfl trivial)

theorem tiers_alt {d : Dialect} {cs : List TierConfig} {l : List Item} (h : Tiers d cs l) : Alt l := by
  induction h with
  | last h => trivial
  | lastOpts h ho => exact alt_cons (name_isI h) (alt_cons rfl (alt_join (opts_alt ho) rfl trivial))
  | lastEmpty _ h => exact alt_cons (name_isI h) (alt_cons rfl (alt_cons rfl trivial))
  | more h _ ih => exact alt_cons (name_isI h) (alt_cons rfl ih)
  | moreOpts h ho _ ih => exact alt_cons (name_isI h) (alt_cons rfl (alt_join (opts_alt ho) rfl (alt_cons rfl ih)))
  | moreEmpty _ h _ ih => exact alt_cons (name_isI h) (alt_cons rfl (alt_cons rfl (alt_cons rfl ih)))
  | nocomma _ h _ ih => exact alt_cons (name_isI h) (alt_cons rfl (alt_cons rfl ih))

theorem debug_alt {d : Bool} {l : List Item} (h : Debug d l) : Alt l := by
  cases h <;> trivial

theorem showOne_alt {op : ShowOp} {l : List Item} (h : ShowOps1 op l) : Alt l := by
  cases h with
  | memory ha hd => exact alt_cons (kw_isI ha) (debug_alt hd)
  | wal ha hd => exact alt_cons (kw_isI ha) (debug_alt hd)
  | cloud ha hb hd => exact alt_cons (kw_isI ha) (alt_cons (name_isI hb) (debug_alt hd))
  | clouds ha hd => exact alt_cons (kw_isI ha) (debug_alt hd)
  | storage ha hb hd => exact alt_cons (kw_isI ha) (alt_cons (name_isI hb) (debug_alt hd))
  | storages ha hd => exact alt_cons (kw_isI ha) (debug_alt hd)
  | partition ha hd =>
    refine alt_cons (kw_isI ha) ?_
    cases hd with
    | no => trivial
    | yes h => exact ⟨by simp [kw_isI h], trivial⟩
  | partitionsOf ha hb hd => exact alt_cons (kw_isI ha) (alt_cons (name_isI hb) (debug_alt hd))
  | partitions ha hd => exact alt_cons (kw_isI ha) (debug_alt hd)
  | pipeline ha hd => exact alt_cons (kw_isI ha) (debug_alt hd)
  | configOf ha hd => exact alt_cons (ha.elim kw_isI kw_isI) (alt_cons rfl (debug_alt hd))
  | configStr ha hd => exact alt_cons (ha.elim kw_isI kw_isI) (alt_cons rfl (debug_alt hd))
  | config ha => trivial
  | name ha hd => exact alt_cons (name_isI ha) (debug_alt hd)
  | str hd => exact alt_cons rfl (debug_alt hd)

theorem show_alt {ops : List ShowOp} {l : List Item} (h : ShowOps ops l) : Alt l := by
  induction h with
  | last h => exact showOne_alt h
  | more h _ ih => exact alt_join (showOne_alt h) rfl ih

theorem ine_alt {e : Bool} {l : List Item} (h : IfNotExists e l) : ∀ a ∈ l, isI a = false := by
  cases h with
  | no => simp
  | yes h1 h2 h3 => simp [kw_isI h1, kw_isI h2, kw_isI h3]

theorem ie_alt {e : Bool} {l : List Item} (h : IfExists e l) : ∀ a ∈ l, isI a = false := by
  cases h with
  | no => simp
  | yes h1 h2 => simp [kw_isI h1, kw_isI h2]

theorem ic_alt {e : Bool} {l : List Item} (h : IfCloud e l) : ∀ a ∈ l, isI a = false := by
  cases h with
  | no => simp
  | yes h1 h2 => simp [kw_isI h1, kw_isI h2]

theorem on_alt {m : Nat} {l : List Item} (h : On m l) : ∀ a ∈ l, isI a = false := by
  cases h with
  | both => simp
  | storage h1 h2 => simp [kw_isI h1, kw_isI h2]
  | cloud h1 h2 => simp [kw_isI h1, kw_isI h2]

theorem alt_words {l l' : List Item} (h : ∀ a ∈ l, isI a = false) (h' : Alt l') : Alt (l ++ l') := by
  induction l with
  | nil => exact h'
  | cons a l ih => exact alt_cons (h a (by simp)) (ih fun b hb => h b (by simp [hb]))

theorem alt_int_words {n : Nat} {l : List Item} (h : ∀ a ∈ l, isI a = false) : Alt (.int n :: l) := by
  cases l with
  | nil => trivial
  | cons a l =>
    have := alt_words (l' := []) h trivial
    rw [List.append_nil] at this
    exact ⟨by simp [h a (by simp)], this⟩

theorem between_alt {min max : Nat} {l l' : List Item} (h : Between min max l) (h' : ∀ a ∈ l', isI a = false) : Alt (l ++ l') := by
  cases h with
  | mk h1 h2 => exact alt_cons (kw_isI h1) ⟨by simp [kw_isI h2], alt_cons (kw_isI h2) (alt_int_words h')⟩

theorem says_noRun {d : Dialect} {env : Env} {cmd : Cmd} {l : List Item} (h : Says d env cmd l) : NoRun l := by
  cases h with
  | create ha hb =>
    obtain ⟨s, rfl, _⟩ := ha
    obtain ⟨s', rfl, _⟩ := hb
    simp [NoRun, lead]
  | empty => exact alt_noRun _ (trivial)
  | show_ ha ho => exact alt_noRun _ (alt_cons (kw_isI ha) (show_alt ho))
  | set ha hb => exact alt_noRun _ (alt_cons (kw_isI ha) (alt_cons rfl (alt_cons (kw_isI hb) trivial)))
  | setEnd ha hb => exact alt_noRun _ (alt_cons (kw_isI ha) (alt_cons rfl trivial))
  | walCreate ha => exact alt_noRun _ (alt_cons (kw_isI ha) trivial)
  | walGc ha => exact alt_noRun _ (alt_cons (kw_isI ha) trivial)
  | walRead ha => exact alt_noRun _ (alt_cons (kw_isI ha) trivial)
  | memoryGc ha => exact alt_noRun _ (alt_cons (kw_isI ha) trivial)
  | checkpoint ha => exact alt_noRun _ (trivial)
  | service ha => exact alt_noRun _ (trivial)
  | rebalance ha => exact alt_noRun _ (trivial)
  | cloudCreate ha hb he hc ho => exact alt_noRun _ (alt_cons (kw_isI ha) (alt_cons (kw_isI hb) (alt_words (ine_alt he) (alt_cons (name_isI hc) (options_alt ho)))))
  | cloudDrop ha hb he hc => exact alt_noRun _ (alt_cons (kw_isI ha) (alt_cons (kw_isI hb) (alt_words (ie_alt he) (alt_cons (name_isI hc) trivial))))
  | cloudRename ha hb he hc hf hg => exact alt_noRun _ (alt_cons (kw_isI ha) (alt_cons (kw_isI hb) (alt_words (ie_alt he) (alt_cons (name_isI hc) (alt_cons (kw_isI hf) trivial)))))
  | cloudRenameTo ha hb he hc hf ht hg => exact alt_noRun _ (alt_cons (kw_isI ha) (alt_cons (kw_isI hb) (alt_words (ie_alt he) (alt_cons (name_isI hc) (alt_cons (kw_isI hf) (alt_cons (kw_isI ht) trivial))))))
  | cloudAlter ha hb he hc hf ho hm => exact alt_noRun _ (alt_cons (kw_isI ha) (alt_cons (kw_isI hb) (alt_words (ie_alt he) (alt_cons (name_isI hc) (alt_cons (kw_isI hf) (options_alt ho))))))
  | storageCreate ha hb he hc ho => exact alt_noRun _ (alt_cons (kw_isI ha) (alt_cons (kw_isI hb) (alt_words (ine_alt he) (alt_cons (name_isI hc) (options_alt ho)))))
  | storageDrop ha hb he hc => exact alt_noRun _ (alt_cons (kw_isI ha) (alt_cons (kw_isI hb) (alt_words (ie_alt he) (alt_cons (name_isI hc) trivial))))
  | storageRename ha hb he hc hf hg => exact alt_noRun _ (alt_cons (kw_isI ha) (alt_cons (kw_isI hb) (alt_words (ie_alt he) (alt_cons (name_isI hc) (alt_cons (kw_isI hf) trivial)))))
  | storageRenameTo ha hb he hc hf ht hg => exact alt_noRun _ (alt_cons (kw_isI ha) (alt_cons (kw_isI hb) (alt_words (ie_alt he) (alt_cons (name_isI hc) (alt_cons (kw_isI hf) (alt_cons (kw_isI ht) trivial))))))
  | storageAlter ha hb he hc hf ho hm => exact alt_noRun _ (alt_cons (kw_isI ha) (alt_cons (kw_isI hb) (alt_words (ie_alt he) (alt_cons (name_isI hc) (alt_cons (kw_isI hf) (options_alt ho))))))
  | pipelineReset ha hb hc => exact alt_noRun _ (alt_cons (kw_isI ha) (alt_cons (kw_isI hb) (trivial)))
  | pipelineSet ha hb hc ht => exact alt_noRun _ (alt_cons (kw_isI ha) (alt_cons (kw_isI hb) (alt_cons (kw_isI hc) (tiers_alt ht))))
  | create1 ha hb => exact alt_noRun _ (alt_cons (kw_isI ha) (alt_cons (kw_isI hb) (trivial)))
  | drop ha hb he ho => exact alt_noRun _ (alt_cons (kw_isI ha) (alt_cons (kw_isI hb) (alt_words (ie_alt he) (alt_int_words (on_alt ho)))))
  | dropRange ha hb he ho => exact alt_noRun _ (alt_cons (kw_isI ha) (alt_cons (kw_isI hb) (between_alt he (on_alt ho))))
  | move ha hb he hc hf => exact alt_noRun _ (alt_cons (kw_isI ha) (alt_cons (kw_isI hb) (alt_words (ie_alt he) (alt_int_words (by simp [kw_isI hc, name_isI hf])))))
  | moveRange ha hb he hc hf => exact alt_noRun _ (alt_cons (kw_isI ha) (alt_cons (kw_isI hb) (between_alt he (by simp [kw_isI hc, name_isI hf]))))
  | refresh ha hb he => exact alt_noRun _ (alt_cons (kw_isI ha) (alt_cons (kw_isI hb) (alt_words (ie_alt he) trivial)))
  | refreshRange ha hb he => exact alt_noRun _ (alt_cons (kw_isI ha) (alt_cons (kw_isI hb) (by have := between_alt (l' := []) he (by simp); rwa [List.append_nil] at this)))
  | download ha hb he ho => exact alt_noRun _ (alt_cons (kw_isI ha) (alt_cons (kw_isI hb) (alt_words (ie_alt he) (alt_int_words (ic_alt ho)))))
  | downloadRange ha hb he ho => exact alt_noRun _ (alt_cons (kw_isI ha) (alt_cons (kw_isI hb) (between_alt he (ic_alt ho))))
  | upload ha hb he ho => exact alt_noRun _ (alt_cons (kw_isI ha) (alt_cons (kw_isI hb) (alt_words (ie_alt he) (alt_int_words (ic_alt ho)))))
  | uploadRange ha hb he ho => exact alt_noRun _ (alt_cons (kw_isI ha) (alt_cons (kw_isI hb) (between_alt he (ic_alt ho))))

end Verif.C58
