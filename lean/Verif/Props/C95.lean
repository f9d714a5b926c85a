import Verif.Proofs.C95

/-! C95: what was put into a cloud is found there. -/
namespace Verif.C95
open Reopen Reach Parse

/-- C95, for sessions in which ALTER CLOUD does not change the url of a cloud that has
partitions.  Missing: such an ALTER CLOUD, which is accepted (`C95_false`). -/
theorem C95_partial (m : Machine) (st : Reopen.St) (stored : Place → Option Nat) (ops : List Reach.Op) (hl : Linked st)
    (hc : Carefully m (start st stored) ops) : ∃ w, Reach.run m (start st stored) ops = .ok w ∧ Found w ∧ Single w := by
  obtain ⟨w, h1, h2⟩ := run_inv (start_inv hl stored) hc
  exact ⟨w, h1, inv_found h2, inv_single h2⟩

/-- An environment that opens as it was (C83) finds the partitions that its directories
have (C26) where they were. -/
theorem C95_restart (w : World) (st' : Reopen.St) (h : C83.Same w.st st')
    (hp : st'.storages.map (·.parts) = w.st.storages.map (·.parts)) (hf : Found w) : Found { w with st := st' } := by
  intro s hs min hm hu ha
  obtain ⟨i, hi⟩ := List.mem_iff_getElem?.1 hs
  have h1 : (st'.storages.map (·.source))[i]? = some s.source := by simp [hi]
  have h2 : (st'.storages.map (·.cloud))[i]? = some s.cloud := by simp [hi]
  have h3 : (st'.storages.map (·.parts))[i]? = some s.parts := by simp [hi]
  rw [h.sources] at h1
  rw [h.links] at h2
  rw [hp] at h3
  simp only [List.getElem?_map, Option.map_eq_some_iff] at h1 h2 h3
  obtain ⟨t, ht, e1⟩ := h1
  obtain ⟨t', ht', e2⟩ := h2
  rw [ht] at ht'
  cases ht'
  obtain ⟨t', ht', e3⟩ := h3
  rw [ht] at ht'
  cases ht'
  have hst : s = t := by
    cases s; cases t
    simp only at e1 e2 e3
    rw [e1, e2, e3]
  subst hst
  have := hf s (List.mem_of_getElem? ht) min hm hu ha
  simp only [fetch, address, h.clouds] at this ⊢
  exact this

/-! ### A session -/

def mach : Machine := ⟨fun _ => none, fun _ => [], 4⟩
def key : Bytes := List.replicate 32 97
def fine : Settings.Outside := ⟨false, false, false, false, false, false⟩
def exec (s : String) : Reach.Op := .execute (Lex.bytes s) ⟨3, 4⟩ key fine
def bs (s : String) : Bytes := str (Lex.bytes s)
def st0 : Reopen.St := ⟨first ⟨1, 2⟩, [], [⟨{ Source.allocate with name := bs "main", uuid := ⟨1, 2⟩ }, none, []⟩], [], []⟩

/-- A cloud and a storage on it; a partition is uploaded; the cloud is renamed and
gets a new password, the storage is renamed, another partition is written, moved there
and uploaded. -/
def session : List Reach.Op :=
  [exec "create cloud c (type \"s3\", login \"l\", password \"p\", url \"u1\")",
   exec "create storage s (cloud \"c\")",
   .create (bs "s") 10 1, .refresh 10 2 none, .upload 10 false,
   exec "alter cloud c rename to d", exec "alter cloud d set (password \"q\")", exec "alter storage s rename to store",
   .create (bs "main") 20 3, .refresh 20 4 (some (bs "store")), .upload 20 true, .upload 20 false,
   .refresh 10 7 none, exec "drop cloud d", exec "alter storage store set (cloud \"\")"]

/-- ALTER CLOUD with a new url. -/
def moved : List Reach.Op := session ++ [exec "alter cloud d set (url \"u2\")"]

/-- What is looked at. -/
def seen (w : World) : List (Bytes × Option Bytes × List (Nat × Bool × Res Nat)) :=
  w.st.storages.map fun s => (s.source.name, s.cloud, s.parts.map fun min => (min, w.up min, fetch w s min))

/-- A check that steps are careful. -/
def careful (w : World) : Reach.Op → Bool
  | .execute text uuid key _ =>
    match (envOf w.st.cfg uuid key).bind fun env => parse env text with
    | .ok (.cloudAlter _ _ _ mask) => !mask.testBit 4
    | _ => true
  | _ => true

@[inherit_doc careful] def carefully (m : Machine) : World → List Reach.Op → Bool
  | _, [] => true
  | w, op :: ops => careful w op && match Reach.step m w op with
    | .ok w' => carefully m w' ops
    | _ => true

theorem careful_sound {w : World} {op : Reach.Op} (h : careful w op = true) : Careful w op := by
  cases op <;> try trivial
  intro ie n c mask hs h4
  obtain ⟨env, he, hp⟩ := hs
  simp [careful, he, Res.bind_ok, hp, h4] at h

theorem carefully_sound {m : Machine} : ∀ {ops : List Reach.Op} {w : World}, carefully m w ops = true → Carefully m w ops
  | [], _, _ => trivial
  | op :: ops, w, h => by
    simp only [carefully, Bool.and_eq_true] at h
    refine ⟨careful_sound h.1, fun w' hw => ?_⟩
    have h2 := h.2
    rw [hw] at h2
    exact carefully_sound h2

theorem linked0 : Linked st0 := by
  intro s hs n hn
  simp only [st0, List.mem_singleton] at hs
  subst hs
  cases hn

set_option maxRecDepth 100000 in
/-- The session is careful. -/
example : Linked st0 ∧ Carefully mach (start st0 fun _ => none) session := ⟨linked0, carefully_sound (by decide +kernel)⟩

set_option maxRecDepth 100000 in
/-- At its end both partitions are in the cloud and found, with the content they had
when they were uploaded; the refresh, DROP CLOUD and the last ALTER STORAGE were
refused. -/
example : (match Reach.run mach (start st0 fun _ => none) session with
    | .ok w => seen w == [(bs "main", none, []), (bs "store", some (bs "d"), [(20, true, .ok 4), (10, true, .ok 2)])]
    | _ => false) = true := by decide +kernel

/-- A partition of the cloud that is not found. -/
def lostOne (w : World) : Bool :=
  w.st.storages.any fun s => s.parts.any fun min => w.up min && !w.asked min && fetch w s min == .err "s3: 404"

theorem lost_bad {w : World} (h : lostOne w = true) : ¬ Found w := by
  intro hf
  simp only [lostOne, List.any_eq_true, Bool.and_eq_true, Bool.not_eq_true', beq_iff_eq] at h
  obtain ⟨s, hs, min, hm, ⟨hu, ha⟩, he⟩ := h
  rw [hf s hs min hm hu ha] at he
  cases he

set_option maxRecDepth 100000 in
/-- ALTER CLOUD with a new url is accepted, and what is in the cloud is not found any
more. -/
theorem C95_url_false : ∃ w, Reach.run mach (start st0 fun _ => none) moved = .ok w ∧ ¬ Found w := by
  have h : (match Reach.run mach (start st0 fun _ => none) moved with | .ok w => lostOne w | _ => false) = true := by decide +kernel
  split at h
  · rename_i w hw
    exact ⟨w, hw, lost_bad h⟩
  · cases h

/-- C95 in full does not hold of the code. -/
theorem C95_false : ¬ Full := by
  intro hf
  obtain ⟨w, h1, h2⟩ := C95_url_false
  obtain ⟨w', h3, h4, _⟩ := hf mach st0 (fun _ => none) moved linked0
  rw [h1] at h3
  cases h3
  exact h2 h4

/-- A partition in a cloud. -/
def world1 : World :=
  let c : CloudConfig := { CloudConfig.allocate with name := bs "c", type := bs "s3", url := bs "u" }
  let src : Source := { Source.allocate with name := bs "s", uuid := ⟨3, 4⟩, cloud := bs "c" }
  ⟨⟨[], [c], [⟨src, some (bs "c"), [10]⟩], [], []⟩, fun _ => true, fun _ => 2, fun _ => false,
    put (fun _ => none) (.s3 (bs "u") ⟨3, 4⟩ 10) (some 2)⟩

/-- The hypotheses of `C95_restart` are met by it and a state that differs in its text. -/
example : Found { world1 with st := { world1.st with text := [1] } } := by
  refine C95_restart world1 { world1.st with text := [1] } ⟨rfl, rfl, rfl, rfl, fun _ v h _ => (by cases h)⟩ rfl ?_
  intro s hs min hm _ _
  simp only [world1, List.mem_singleton] at hs
  subst hs
  simp only [List.mem_singleton] at hm
  subst hm
  decide +kernel

end Verif.C95
