import Verif.Proofs.C83Run

namespace Verif.C83
open Reopen Parse

/-- A new environment starts, stays usable over commands and restarts, and opens from
its file as it was after any of them: the same clouds, storages, links between them,
tiers and saved variables.  Missing from the full property are the commands that
`Careful` excludes: strings that a quote ends too early in the file, numbers within 48 of
the ends of the 64-bit range, an s3 cloud left without login, password or url, a storage
that gets a cloud which is missing or refuses it, and renaming a storage which is in the
pipeline twice (`C83_false_login`, `C83_false_string`, `C83_false_number`,
`C83_false_cloud`, `C83_false_rename`). -/
theorem C83_opens_partial (m : Machine) (uuid : Uuid) (hd : 4 ≤ m.depth) (hu : C45.Legal uuid) :
    ∃ st, boot m (first uuid) none = .ok st ∧ ∀ ops, (∀ op ∈ ops, Given op) → Carefully m st ops →
      ∃ st', run m st ops = some st' ∧ Opens m st' := by
  obtain ⟨st, h1, h2⟩ := start_inv hd hu
  refine ⟨st, h1, fun ops hg hc => ?_⟩
  obtain ⟨st', h3, h4⟩ := run_inv hd ops h2 hg hc
  refine ⟨st', h3, fun fresh hf => ?_⟩
  obtain ⟨st'', h5, h6, _⟩ := boot_inv hd h4 hf
  exact ⟨st'', h5, h6⟩

/-! ### Commands to which the theorem applies -/

def mach : Machine := ⟨fun _ => none, fun _ => [], 4⟩
def key : Bytes := List.replicate 32 97
def fine : Settings.Outside := ⟨false, false, false, false, false, false⟩
def exec (s : String) : Op := .execute (Lex.bytes s) ⟨3, 4⟩ key fine

/-- A check that a step is careful, for commands with double quotes. -/
def sensible (st : St) (o : Settings.Outside) : Cmd → Bool
  | .cloudCreate _ _ => decide (st.clouds.length + 1 < 2147483648)
  | .cloudAlter _ _ c mask =>
    !mask.testBit 3 && !mask.testBit 4 && (!mask.testBit 2 || !c.login.isEmpty)
  | .storageCreate _ _ => decide (st.storages.length + 1 < 2147483648)
  | .storageAlter _ _ c mask =>
    !mask.testBit 3 || c.cloud.isEmpty || ((st.clouds.any fun d => d.name == c.cloud) && !o.attach)
  | .storageRename _ n _ => decide ((st.tiers.filter fun t => t.name == str n).length ≤ 1)
  | .pipelineAlter l => l.all fun t => decide (t.partitions = -1 ∧ 0 ≤ t.size + 1 ∧ t.size < 1000 ∧ t.events = -1 ∧ t.duration = -1)
  | .cloudRename _ _ _ => true
  | .storageDrop _ _ => true
  | _ => false

theorem sensible_ok {st : St} {o : Settings.Outside} {c : Cmd} (h : sensible st o c = true) : Sensible st o c := by
  cases c <;> simp only [sensible, Bool.false_eq_true, decide_eq_true_eq, Bool.and_eq_true, Bool.or_eq_true, Bool.not_eq_true', List.all_eq_true] at h
  case cloudCreate => exact h
  case cloudAlter ie n c mask =>
    intro d _ _ _
    refine ⟨fun e => ?_, fun e => absurd e (by simp [h.1.1]), fun e => absurd e (by simp [h.1.2])⟩
    rcases h.2 with h | h
    · rw [h] at e; cases e
    · simpa using h
  case storageCreate => exact h
  case storageAlter =>
    intro e
    rcases h with (h | h) | h
    · rw [h] at e; cases e
    · exact .inl (by simpa using h)
    · refine .inr ⟨?_, h.2⟩
      simpa using h.1
  case storageRename => exact h
  case pipelineAlter l =>
    intro t ht
    have := h t ht
    unfold C35.SmallInt
    omega
  all_goals trivial

def careful (st : St) : Op → Bool
  | .execute text uuid key o =>
    !text.contains 39 &&
    match envOf st.cfg uuid key with
    | .ok env => match parse env text with
      | .ok c => sensible st o c
      | _ => true
    | _ => true
  | _ => true

theorem careful_ok {st : St} {op : Op} (h : careful st op = true) : Careful st op := by
  cases op with
  | execute text uuid key o =>
    simp only [careful, Bool.and_eq_true, Bool.not_eq_true'] at h
    refine ⟨.inl (by simpa using h.1), ?_⟩
    rintro c ⟨env, h1, h2⟩
    have := h.2
    rw [h1] at this
    dsimp only at this
    rw [h2] at this
    exact sensible_ok this
  | partitions f => trivial
  | restart fresh => trivial

def check (m : Machine) : St → List Op → Bool
  | _, [] => true
  | st, op :: ops => careful st op && match step m st op with
    | some st => check m st ops
    | none => false

theorem check_ok {m : Machine} : ∀ {ops : List Op} {st : St}, check m st ops = true → Carefully m st ops
  | [], _, _ => trivial
  | op :: ops, st, h => by
    simp only [check, Bool.and_eq_true] at h
    refine ⟨careful_ok h.1, fun st' e => ?_⟩
    have := h.2
    rw [e] at this
    exact check_ok this

/-- Commands and a restart. -/
def script : List Op :=
  [exec "create cloud c (type \"s3\", login \"l\", password \"a\\\"b\", url \"u\")",
   exec "create storage s (cloud \"c\", path \"/data\")",
   exec "alter pipeline set s (size 7), main",
   .partitions fun _ => [5],
   .restart Config.prepare,
   exec "alter cloud c rename to d",
   exec "alter storage s rename to v",
   exec "alter cloud d set (login \"k\")"]

/-- The environment after steps from a new one. -/
def after (ops : List Op) : Option St :=
  match boot mach (first ⟨1, 2⟩) none with
  | .ok st => run mach st ops
  | _ => none

def checked (ops : List Op) : Bool :=
  match boot mach (first ⟨1, 2⟩) none with
  | .ok st => check mach st ops
  | _ => false

set_option maxRecDepth 100000 in
example : (∀ op ∈ script, Given op) ∧ ∃ st, boot mach (first ⟨1, 2⟩) none = .ok st ∧ Carefully mach st script := by
  constructor
  · have hkey : key.length = 32 ∧ ∀ b ∈ key, Alnum b := by unfold Alnum; decide
    have hex : ∀ s : String, (∀ c ∈ Lex.bytes s, c < 256) → (Lex.bytes s).length + 5 < 2147483648 → Given (exec s) :=
      fun s h1 h2 => ⟨h1, h2, by unfold C45.Legal; decide, hkey⟩
    simp only [script, List.forall_mem_cons]
    refine ⟨hex _ (by decide +kernel) (by decide +kernel), hex _ (by decide +kernel) (by decide +kernel),
      hex _ (by decide +kernel) (by decide +kernel), trivial, rfl, hex _ (by decide +kernel) (by decide +kernel),
      hex _ (by decide +kernel) (by decide +kernel), hex _ (by decide +kernel) (by decide +kernel), by simp⟩
  · have h : checked script = true := by decide +kernel
    unfold checked at h
    cases e : boot mach (first ⟨1, 2⟩) none with
    | ok st =>
      rw [e] at h
      exact ⟨st, rfl, check_ok h⟩
    | err x => rw [e] at h; cases h
    | abort x => rw [e] at h; cases h
    | ub x => rw [e] at h; cases h

/-- What there is after it: logins, storages, their clouds, tiers. -/
def summary (st : St) : List (List Bytes) :=
  [st.clouds.map (·.login), st.storages.map (·.source.name), st.storages.filterMap (·.cloud), st.tiers.map (·.name)]

def ends (ops : List Op) (l : List (List Bytes)) : Bool :=
  match after ops with
  | some st => summary st == l
  | none => false

example : ends script [[Decode.cstr "k"], [Decode.cstr "main", Decode.cstr "v"], [Decode.cstr "d"], [Decode.cstr "v", Decode.cstr "main"]] = true := by
  decide +kernel

/-! ### Commands that leave an environment which does not open -/

/-- How opening the environment ends. -/
def reopened (ops : List Op) : Option (Res Unit) :=
  (after ops).map fun st => (boot mach Config.prepare (some st.text)).bind fun _ => .ok ()

/-- ALTER CLOUD takes an empty login; opening does not. -/
theorem C83_false_login :
    reopened [exec "create cloud c (type 's3', login 'l', password 'p', url 'u')", exec "alter cloud c set (login '')"] =
      some (.err "s3: access_key is not defined") := by decide +kernel

/-- A double quote in a string in single quotes. -/
theorem C83_false_string :
    reopened [exec "create cloud c (type 's3', login 'l', password 'a\"b', url 'u')"] = some (.err "json parse error") := by decide +kernel

/-- A limit of a tier that is read back with an overflow. -/
theorem C83_false_number :
    reopened [exec "alter pipeline set main (size 9223372036854775807)"] = some (.ub "signed integer overflow") := by decide +kernel

/-- ALTER STORAGE with a cloud that is missing is refused, but the storage keeps its
name, and the next command that changes the configuration saves it. -/
theorem C83_false_cloud :
    reopened [exec "create storage s", exec "alter storage s set (cloud 'x')", exec "create storage u"] =
      some (.err "storage: cloud not exists") := by decide +kernel

/-- A storage twice in the pipeline: renaming it changes only the first tier. -/
theorem C83_false_rename :
    reopened [exec "create storage s", exec "create storage u", exec "alter pipeline set s (size 9), u (size 8), s",
      exec "alter storage s rename to v"] = some (.err "storage: not exists") := by decide +kernel

/-- C83 in full fails. -/
theorem C83_false : ¬ Full := by
  intro h
  obtain ⟨st, h1, h2⟩ := h mach ⟨1, 2⟩ (by decide) (by unfold C45.Legal; decide)
  have hkey : key.length = 32 ∧ ∀ b ∈ key, Alnum b := by unfold Alnum; decide
  obtain ⟨st', h3, h4⟩ := h2 [exec "create cloud c (type 's3', login 'l', password 'p', url 'u')", exec "alter cloud c set (login '')"] (by
    simp only [List.forall_mem_cons]
    exact ⟨⟨by decide +kernel, by decide +kernel, by unfold C45.Legal; decide, hkey⟩,
      ⟨by decide +kernel, by decide +kernel, by unfold C45.Legal; decide, hkey⟩, by simp⟩)
  obtain ⟨st'', h5, _⟩ := h4 Config.prepare rfl
  have h6 := C83_false_login
  unfold reopened after at h6
  rw [h1] at h6
  dsimp only at h6
  rw [h3, Option.map_some, h5, Res.bind_ok] at h6
  cases h6

end Verif.C83
