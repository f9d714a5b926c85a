import Verif.Proofs.C80Keys

/-!
C80. Changing the settings of storages never makes their data unreadable, nor a storage
unwritable; ALTER changes the settings it names and no others.  The last is proved
for numbers within 32 bits.  The first is false if ALTER fails after the settings were
changed, if the configuration file cannot be written, and for a uuid given twice; the
second if ALTER turns encryption on without a key, or takes the key away.
-/
namespace Verif.C80
open Settings Parse

/-! ### ALTER -/

/-- ALTER STORAGE SET, whether it fails or not: the storages stay the same ones in the
same order, with their uuids, names and partitions; only the one it names may change,
and of its settings only those that are named in the command. -/
theorem C80_unnamed {env : Env} {st : St} {text : List Nat} {items : List C58.Item} {o : Outside} {ie : Bool} {n : List Nat}
    {c : Source} {mask : Nat} (hp : parse env text = .ok (.storageAlter ie n c mask)) (ht : C58.Text items text) :
    let st' := (Settings.execute env st text o).2
    st'.storages.length = st.storages.length ∧ st'.disk = st.disk ∧ st'.clouds = st.clouds ∧
    ∀ (i : Nat) (s s' : Storage), st.storages[i]? = some s → st'.storages[i]? = some s' →
      s'.source.uuid = s.source.uuid ∧ s'.source.name = s.source.name ∧ s'.parts = s.parts ∧
      (s.source.name ≠ str n → s' = s) ∧
      ∀ p ∈ settings, .word (Lex.bytes p.1) ∉ items → p.2 s'.source = p.2 s.source := by
  obtain ⟨h0, h1, hn⟩ := parse_alter hp
  have hb : ∀ p ∈ bits, mask.testBit p.2 = true → .word (Lex.bytes p.1) ∈ items := by
    obtain ⟨items', ht', hs⟩ := C58.parse_code.1 hp
    have := C58.text_unique text.length _ _ text (Nat.le_refl _) ht' ht
    subst this
    cases hs with
    | storageAlter _ _ _ _ _ ho _ =>
      intro p hpb hm
      have := (options_bits ho p hpb).1 hm
      simp [this]
  have hr : (Settings.execute env st text o).2.storages = (Settings.storage_alter st c mask ie o).2.storages := by
    unfold Settings.execute
    rw [hp]
    exact save_storages _ _
  have hd : (Settings.execute env st text o).2.disk = st.disk ∧ (Settings.execute env st text o).2.clouds = st.clouds := by
    have h1 : (Settings.storage_alter st c mask ie o).2.disk = st.disk ∧ (Settings.storage_alter st c mask ie o).2.clouds = st.clouds := by
      unfold Settings.storage_alter
      split
      · split <;> exact ⟨rfl, rfl⟩
      · dsimp only
        repeat' split
        all_goals exact ⟨rfl, rfl⟩
    unfold Settings.execute
    rw [hp]
    show (save (Settings.storage_alter st c mask ie o) o.save).2.disk = _ ∧ (save (Settings.storage_alter st c mask ie o) o.save).2.clouds = _
    revert h1
    generalize Settings.storage_alter st c mask ie o = r
    intro h1
    obtain ⟨x, st'⟩ := r
    unfold save
    cases x with
    | ok _ => dsimp only; split <;> exact h1
    | _ => exact h1
  dsimp only
  rw [hr]
  refine ⟨?_, hd.1, hd.2, ?_⟩
  · rcases alter_cases st c mask ie o with ⟨e, _⟩ | ⟨s, cl, hf, e⟩
    · rw [e]
    · obtain ⟨_, pre, post, e1, e2, _, _⟩ := find_split hf
      rw [e, e2, e1]
      simp
  · intro i s s' hs hs'
    rcases alter_cases st c mask ie o with ⟨e, _⟩ | ⟨t, cl, hf, e⟩
    · rw [e, hs] at hs'
      injection hs' with hs'
      subst hs'
      exact ⟨rfl, rfl, rfl, fun _ => rfl, fun _ _ _ => rfl⟩
    · obtain ⟨hname, pre, post, e1, e2, _, _⟩ := find_split hf
      rw [e, e2] at hs'
      rw [e1] at hs
      by_cases hi : i = pre.length
      · subst hi
        simp only [List.getElem?_append_right (Nat.le_refl _), Nat.sub_self, List.getElem?_cons_zero, Option.some.injEq] at hs hs'
        subst hs
        subst hs'
        refine ⟨by simp [source_alter, h0], by simp [source_alter, h1], rfl, fun h => absurd (hname.trans hn) h, ?_⟩
        intro p hpm hw
        obtain ⟨j, hj, ej⟩ := alter_settings t.source c mask p hpm
        show p.2 (source_alter t.source c mask) = _
        rw [ej, if_neg]
        exact fun h => hw (hb _ hj h)
      · have : s' = s := by
          rcases Nat.lt_or_gt_of_ne hi with h | h
          · rw [List.getElem?_append_left h] at hs hs'
            rw [hs] at hs'
            injection hs' with hs'
            exact hs'.symm
          · obtain ⟨k, rfl⟩ : ∃ k, i = pre.length + (k + 1) := ⟨i - pre.length - 1, by omega⟩
            rw [List.getElem?_append_right (by omega)] at hs hs'
            simp only [Nat.add_sub_cancel_left, List.getElem?_cons_succ] at hs hs'
            rw [hs] at hs'
            injection hs' with hs'
            exact hs'.symm
        subst this
        exact ⟨rfl, rfl, rfl, fun _ => rfl, fun _ _ _ => rfl⟩

/-- Partial: `Exact`, for numbers within 32 bits.  Larger ones are cut (below). -/
theorem C80_named_partial {env : Env} {st : St} {text : List Nat} {o : Outside} {ie : Bool} {n : List Nat} {c : Source} {mask : Nat}
    {l : List C58.Item} (hp : parse env text = .ok (.storageAlter ie n c mask))
    (ho : C58.Options (C58.StorageOpt C58.code) { Source.allocate with name := str n } l c mask)
    (hok : (Settings.execute env st text o).1 = .ok ()) {s : Storage} (hs : find st.storages (str n) = some s) (hc : Fits c) :
    ∃ s', find (Settings.execute env st text o).2.storages (str n) = some s' ∧
      ∀ p ∈ settings, .word (Lex.bytes p.1) ∈ l → p.2 s'.source = p.2 c := by
  have hcut : c.copy = c := by
    simp [Source.copy, wrapS32_id hc.1.1 hc.1.2, wrapS32_id hc.2.1.1 hc.2.1.2, wrapS32_id hc.2.2.1 hc.2.2.2]
  obtain ⟨_, h1, hn⟩ := parse_alter hp
  have hr : (Settings.execute env st text o).2.storages = (Settings.storage_alter st c mask ie o).2.storages := by
    unfold Settings.execute
    rw [hp]
    exact save_storages _ _
  have hok' : (Settings.storage_alter st c mask ie o).1 = .ok () := by
    unfold Settings.execute at hok
    rw [hp] at hok
    have hok : (save (Settings.storage_alter st c mask ie o) o.save).1 = .ok () := hok
    revert hok
    generalize Settings.storage_alter st c mask ie o = r
    obtain ⟨x, st'⟩ := r
    intro hok
    cases x with
    | ok _ => rfl
    | _ => exact hok
  rw [hr]
  rcases alter_cases st c mask ie o with ⟨_, e⟩ | ⟨t, cl, hf, e⟩
  · rw [hn, hs] at e
    exact absurd (e hok') nofun
  · obtain ⟨hname, pre, post, e1, e2, _, e4⟩ := find_split hf
    rw [hn] at hname e4
    refine ⟨⟨source_alter t.source c mask, cl, t.parts⟩, ?_, ?_⟩
    · rw [e, e2]
      unfold find
      rw [List.find?_append]
      have hpre : pre.find? (fun s => s.source.name == str n) = none := by
        rw [List.find?_eq_none]
        intro x hx
        simpa using e4 x hx
      rw [hpre]
      have hnm : (source_alter t.source c mask).name = str n := by simp [source_alter, h1, hname]
      simp [hnm]
    · intro p hpm hw
      obtain ⟨j, hj, ej⟩ := alter_settings t.source c mask p hpm
      show p.2 (source_alter t.source c mask) = _
      rw [ej, if_pos ((options_bits ho _ hj).2 hw), hcut]

/-! ### Data stays readable -/

/-- Partial: after any careful steps every partition file can be read, the environment
opens again, and every partition file can be read then.  Missing from `Full`: what
`Careful` asks (false without each of it, below). -/
theorem C80_readable_partial (uuid : Uuid) (ops : List Op) (h : Carefully (start uuid) ops) : Good (run (start uuid) ops) :=
  inv_good (run_inv (start_inv uuid) ops h)

/-- Partial: partitions can be refreshed and moved.  Missing from `Full`: an ALTER that
leaves encryption on without a key of 32 bytes (false, below). -/
theorem C80_writable_partial (uuid : Uuid) (ops : List Op) (h : Keysly (start uuid) ops) : Writable (run (start uuid) ops) :=
  keys_writable (run_keys (start_keys uuid) ops h)

/-- CREATE STORAGE always gives a storage that can be written. -/
theorem C80_create_writable {env : Env} {text : List Nat} {b : Bool} {c : Source} (h : parse env text = .ok (.storageCreate b c))
    (hk : env.key.length = 32) : ∃ k, write_key c = .ok k := keyed_write (parse_create h hk)

/-! ### Examples -/

/-- The checks of `Careful` and `Keys`, for examples. -/
def careful (st : St) : Op → Bool
  | .execute env text o => match parse env text with
    | .ok (.storageCreate _ c) => st.storages.all fun s => s.source.uuid != c.uuid
    | .ok (.storageAlter _ _ c mask) => !mask.testBit 3 || c.cloud == [] || (st.clouds.contains c.cloud && !o.attach)
    | _ => true
  | .refresh _ _ => st.storages.all fun s => st.conf.sources.contains s.source || (st.conf.sources.isEmpty && s.source == main st.uuid)
  | _ => true

def carefully : St → List Op → Bool
  | _, [] => true
  | st, op :: ops => careful st op && carefully (step st op) ops

theorem careful_sound {st : St} {op : Op} (h : careful st op = true) : Careful st op := by
  cases op with
  | execute env text o =>
    intro cmd hp
    simp only [careful, hp] at h
    cases cmd with
    | storageCreate b c =>
      rintro ⟨s, hs, e⟩
      have := List.all_eq_true.1 h s hs
      simp [e] at this
    | storageAlter b n c mask =>
      intro hm
      simpa [hm] using h
    | _ => trivial
  | refresh m t =>
    intro s hs
    have := List.all_eq_true.1 h s hs
    simpa using this
  | _ => trivial

theorem carefully_sound : ∀ {st : St} {ops : List Op}, carefully st ops = true → Carefully st ops
  | _, [], _ => trivial
  | _, _ :: _, h => by
    rw [carefully, Bool.and_eq_true] at h
    exact ⟨careful_sound h.1, carefully_sound h.2⟩

/-- Nothing fails. -/
def fine : Outside := ⟨false, false, false, false, false, false⟩

def env1 : Env := ⟨1000, [], 0, ⟨7, 7⟩, List.replicate 32 65⟩

def cmd (s : String) (o : Outside := fine) : Op := .execute env1 (Lex.bytes s) o

/-- main, as a name. -/
def m : Bytes := Decode.cstr "main"

def k1 : String := "0123456789abcdef0123456789abcdef"

/-- A session: an encrypted storage with a cloud, settings changed while it is empty and
while it is not, a refresh, a move, a restart, a save that fails. -/
def session : List Op :=
  [cmd "create cloud c (type 'mock')", .create m 0, .refresh 0 none,
   cmd "create storage s (encryption 'aes')",
   cmd ("alter storage s set (cloud 'c', path 'p', encryption_key '" ++ k1 ++ "')"),
   .refresh 0 (some (Decode.cstr "s")), cmd "alter storage s set (sync false, compression 'zstd')",
   cmd "alter storage s set (encryption 'none')", cmd "alter cloud c rename to d",
   cmd "alter storage main set (path 'q')" { fine with save := true }, .restart]

example : carefully (start ⟨1, 2⟩) session = true := by decide +kernel

/-- Its end: the encrypted file is in the storage s, which has the key. -/
example : (run (start ⟨1, 2⟩) session).disk = [⟨Decode.cstr "p", ⟨7, 7⟩, 0, some (Decode.cstr k1)⟩] ∧
    read (run (start ⟨1, 2⟩) session) 0 = .file := by decide +kernel

example : Good (run (start ⟨1, 2⟩) session) := C80_readable_partial _ _ (carefully_sound (by decide +kernel))

/-- `Keys` is met by a session with an encrypted storage and an ALTER of its key. -/
example : Keysly (start ⟨1, 2⟩) [cmd "create storage s (encryption 'aes')",
    cmd ("alter storage s set (encryption_key '" ++ k1 ++ "')"), .create (Decode.cstr "s") 0] := by
  refine ⟨⟨by decide, ?_⟩, ⟨by decide, ?_⟩, trivial, trivial⟩
  · intro ie n c mask h
    have : ∀ ie n c mask, parse env1 (Lex.bytes "create storage s (encryption 'aes')") ≠ .ok (.storageAlter ie n c mask) := by
      have e : (match parse env1 (Lex.bytes "create storage s (encryption 'aes')") with
        | .ok (.storageAlter _ _ _ _) => false
        | _ => true) = true := by decide +kernel
      intro ie n c mask h
      rw [h] at e
      cases e
    exact absurd h (this ie n c mask)
  · intro ie n c mask h s hs hn
    have e : (match parse env1 (Lex.bytes ("alter storage s set (encryption_key '" ++ k1 ++ "')")) with
      | .ok (.storageAlter _ _ c mask) => mask.testBit 12 && c.encryption_key.length == 32
      | _ => false) = true := by decide +kernel
    have h : parse env1 (Lex.bytes ("alter storage s set (encryption_key '" ++ k1 ++ "')")) = .ok (.storageAlter ie n c mask) := h
    rw [h] at e
    have e : mask.testBit 12 = true ∧ c.encryption_key.length = 32 := by simpa using e
    right; right
    simp [e.1, e.2]

/-- ALTER on a storage that is not empty: the settings of the examples above are refused
or changed as named. -/
example : (Settings.execute env1 (run (start ⟨1, 2⟩) session) (Lex.bytes "alter storage s set (encryption 'none')") fine).1 =
      .err "storage: storage is not empty" ∧
    (find (run (start ⟨1, 2⟩) session).storages (Decode.cstr "s")).map (fun s => (s.source.sync, s.source.crc, s.source.encryption)) =
      some (false, false, Decode.cstr "aes") := by decide +kernel

/-- The hypotheses of `C80_unnamed` and `C80_named_partial`. -/
example : (match parse env1 (Lex.bytes "alter storage s set (sync false)") with
    | .ok (.storageAlter _ n c mask) => n == Lex.bytes "s" && c.sync == false && mask == 32
    | _ => false) = true := by decide +kernel

/-! ### Where it is false -/

/-- ALTER turns encryption on and gives no key (CREATE would make one): it is accepted,
and from then on no partition of the storage can be written. -/
theorem C80_keyless_false : ∃ ops, Carefully (start ⟨1, 2⟩) ops ∧ ¬ Writable (run (start ⟨1, 2⟩) ops) := by
  refine ⟨[cmd "alter storage main set (encryption 'aes')", .create m 0], carefully_sound (by decide +kernel), ?_⟩
  intro h
  have e : ((run (start ⟨1, 2⟩) [cmd "alter storage main set (encryption 'aes')", .create m 0]).storages.any fun s => s.parts.contains 0) = true ∧
      (Settings.refresh (run (start ⟨1, 2⟩) [cmd "alter storage main set (encryption 'aes')", .create m 0]) 0 none).1 =
        .err "aes: encryption key must be 256bit" := by decide +kernel
  obtain ⟨s, hs, hm⟩ := List.any_eq_true.1 e.1
  have := h.1 s hs 0 (by simpa using hm)
  rw [e.2] at this
  cases this

/-- Whether opening again fails, and whether a partition file is not read after it. -/
def closed (st : St) : Bool := match restart st with
  | .ok _ => false
  | _ => true

@[inherit_doc closed] def lost (st : St) (min : Nat) : Bool := match restart st with
  | .ok st' => st'.disk.any (fun f => f.min == min) && read st' min != .file
  | _ => false

theorem closed_bad {st : St} (h : closed st = true) : ¬ Good st := by
  rintro ⟨_, st', e, _⟩
  simp [closed, e] at h

theorem lost_bad {st : St} {min : Nat} (h : lost st min = true) : ¬ Good st := by
  rintro ⟨_, st', e, _, h'⟩
  simp only [lost, e, Bool.and_eq_true, List.any_eq_true] at h
  obtain ⟨⟨f, hf, hm⟩, hr⟩ := h
  have := h' f hf
  rw [show f.min = min by simpa using hm] at this
  simp [this] at hr

/-- The key is changed and the configuration file cannot be written: the command fails,
the key is in use.  What is written then cannot be read after a restart, and the
environment does not open. -/
theorem C80_unsaved_key_false : ∃ ops, ¬ Good (run (start ⟨1, 2⟩) ops) :=
  ⟨[cmd ("alter storage main set (encryption 'aes', encryption_key '" ++ k1 ++ "')") { fine with save := true },
    .create m 0, .refresh 0 none], closed_bad (by decide +kernel)⟩

/-- The same with the path: the environment opens, without the partition. -/
theorem C80_unsaved_path_false : ∃ ops, ¬ Good (run (start ⟨1, 2⟩) ops) :=
  ⟨[cmd "alter storage main set (path 'p')" { fine with save := true }, .create m 0, .refresh 0 none],
    lost_bad (min := 0) (by decide +kernel)⟩

/-- ALTER names a cloud that is not there.  It is refused, but the storage has the name of
the cloud; the next command that succeeds writes it to the configuration file, and the
environment does not open any more. -/
theorem C80_cloud_false : ∃ ops, ¬ Good (run (start ⟨1, 2⟩) ops) :=
  ⟨[cmd "alter storage main set (cloud 'x')", cmd "create storage s"], closed_bad (by decide +kernel)⟩

/-- The cloud is there and cannot be attached: it can be dropped after that. -/
theorem C80_attach_false : ∃ ops, ¬ Good (run (start ⟨1, 2⟩) ops) :=
  ⟨[cmd "create cloud c (type 'mock')", cmd "alter storage main set (cloud 'c')" { fine with attach := true },
    cmd "drop cloud c"], closed_bad (by decide +kernel)⟩

/-- Two storages with one uuid have one directory; with different keys the environment
does not open. -/
theorem C80_uuid_false : ∃ ops, ¬ Good (run (start ⟨1, 2⟩) ops) :=
  ⟨[cmd "create storage s (uuid '01234567-89ab-cdef-0123-456789abcdef', encryption 'aes')",
    cmd "create storage u1 (uuid '01234567-89ab-cdef-0123-456789abcdef')",
    .create (Decode.cstr "s") 0, .refresh 0 none], closed_bad (by decide +kernel)⟩

/-- A number of more than 32 bits is cut: a refresh mark of 4 GiB becomes 0. -/
theorem C80_cut_false : ¬ Exact := by
  intro h
  have text : C58.Options (C58.StorageOpt C58.code) { Source.allocate with name := str (Lex.bytes "main") }
      (.symbol 40 :: [.word (Lex.bytes "refresh_wm"), .int 4294967296] ++ [.symbol 41])
      { Source.allocate with name := str (Lex.bytes "main"), refresh_wm := 4294967296 } (0 ||| 128) :=
    .some (.last (.refresh_wm (Or.inl ⟨by decide, rfl⟩)))
  have hp : parse env1 (Lex.bytes "alter storage main set (refresh_wm 4294967296)") = .ok (.storageAlter false (Lex.bytes "main")
      { Source.allocate with name := str (Lex.bytes "main"), refresh_wm := 4294967296 } (0 ||| 128)) := by
    have e : (match parse env1 (Lex.bytes "alter storage main set (refresh_wm 4294967296)") with
      | .ok (.storageAlter ie n c mask) => ie == false && n == Lex.bytes "main" &&
        c == { Source.allocate with name := str (Lex.bytes "main"), refresh_wm := 4294967296 } && mask == (0 ||| 128)
      | _ => false) = true := by decide +kernel
    cases hx : parse env1 (Lex.bytes "alter storage main set (refresh_wm 4294967296)") with
    | ok x =>
      rw [hx] at e
      cases x with
      | storageAlter ie n c mask =>
        simp only [Bool.and_eq_true, beq_iff_eq] at e
        rw [e.1.1.1, e.1.1.2, e.1.2, e.2]
      | _ => cases e
    | _ => rw [hx] at e; cases e
  obtain ⟨s', hs', hv⟩ := h env1 (start ⟨1, 2⟩) _ fine false _ _ _ _ ⟨main ⟨1, 2⟩, none, []⟩ hp text (by decide +kernel) (by decide +kernel)
  have := hv ("refresh_wm", fun c => .int c.refresh_wm) (by simp [settings]) (by simp)
  have e : ((find (Settings.execute env1 (start ⟨1, 2⟩) (Lex.bytes "alter storage main set (refresh_wm 4294967296)") fine).2.storages
      (str (Lex.bytes "main"))).map fun s => s.source.refresh_wm) = some 0 := by decide +kernel
  rw [hs'] at e
  have e : s'.source.refresh_wm = 0 := by simpa using e
  simp [e] at this

theorem C80_false : ¬ Full := by
  intro h
  obtain ⟨ops, hb⟩ := C80_cloud_false
  exact hb (h.1 ⟨1, 2⟩ ops).1

end Verif.C80
