import Verif.Proofs.C70

/-! C70: every file of an environment has a path of its own. -/
namespace Verif.C70
open Paths FileName

/-- Full property: `Full`.  Missing: storages that are given the same uuid with the
option of CREATE STORAGE, and directories so long that paths get cut off; see
`C70_shared`, `C70_main`, `C70_cut` and `C70_config`.

When no uuid is given twice and all paths fit, the files of an environment
(configuration, its old copy, log, log files, partition files in all states, files
of the test cloud) have different paths whatever commands made the storages, the
directory of a storage has all its partition files, and recovery takes nothing
else there for one. -/
theorem C70_partial (base : List Nat) (uuid : Uuid) (cs : List Cmd) (hu : Legal uuid)
    (hc : ∀ u ∈ uuids cs, Legal u) (ht : Tame base uuid cs) : Own base (storages uuid cs) := by
  obtain ⟨h1, h2, h3⟩ := ht
  obtain ⟨a, b, c⟩ := execs_inv (base := base) cs [⟨sMain, uuid, []⟩] (by simpa [ids] using h1)
    ⟨h2, by simpa using h2⟩ (by simpa [ids] using hu) hc h3
  exact own b a fun s hs => c _ (List.mem_map_of_mem hs)

/-- "s" -/
def nameS : List Nat := [115]
/-- Two storages besides main, one of them with a path, renamed and moved. -/
def someCmds : List Cmd :=
  [.create ⟨nameS, ⟨1, 2⟩, []⟩ false, .create ⟨[116], ⟨3, 4⟩, [47, 120]⟩ false,
   .rename nameS [117] false, .alter [117] [121] false false, .drop sMain false false]

example : Legal ⟨7, 7⟩ ∧ (∀ u ∈ uuids someCmds, Legal u) ∧ Tame [98] ⟨7, 7⟩ someCmds ∧
    storages ⟨7, 7⟩ someCmds = [⟨sMain, ⟨7, 7⟩, []⟩, ⟨[117], ⟨1, 2⟩, [121]⟩, ⟨[116], ⟨3, 4⟩, [47, 120]⟩] := by
  refine ⟨by simp [Legal], by simp [someCmds, uuids, Legal], ?_, by decide +kernel⟩
  refine ⟨by decide, by decide, ?_⟩
  simp [someCmds, settings, longest]

/-- CREATE STORAGE accepts a uuid that is in use: the files of both storages are the
same files, whatever the partition and its state. -/
theorem C70_shared (base : List Nat) (uuid : Uuid) (a b : Source) (hu : a.uuid = b.uuid) (hp : a.path = b.path)
    (ha : a.name ≠ sMain) (hb : b.name ≠ sMain) (hab : a.name ≠ b.name) :
    storages uuid [.create a false, .create b false] = [⟨sMain, uuid, []⟩, a, b] ∧
    ∀ min st, path base (.part a min st) = path base (.part b min st) := by
  constructor
  · have ha' := Ne.symm ha
    have hb' := Ne.symm hb
    simp [storages, execs, exec, storage_mgr_create, find, ha', hb', hab]
  · intro min st
    simp [path, id_path, source_pathfmt, root, hu, hp]

example : ∃ a b : Source, a.uuid = b.uuid ∧ a.path = b.path ∧ a.name ≠ sMain ∧ b.name ≠ sMain ∧ a.name ≠ b.name :=
  ⟨⟨[97], ⟨1, 1⟩, []⟩, ⟨[98], ⟨1, 1⟩, []⟩, rfl, rfl, by decide, by decide, by decide⟩

/-- The uuid may also be the one of the environment, which SHOW tells: the storage
is then in the directory of main. -/
theorem C70_main (base name : List Nat) (uuid : Uuid) (hn : name ≠ sMain) :
    ∃ m s, storages uuid [.create ⟨name, uuid, []⟩ false] = [m, s] ∧ m ≠ s ∧
      ∀ min st, path base (.part m min st) = path base (.part s min st) := by
  refine ⟨⟨sMain, uuid, []⟩, ⟨name, uuid, []⟩, ?_, ?_, ?_⟩
  · have := Ne.symm hn
    simp [storages, execs, exec, storage_mgr_create, find, this]
  · intro h; exact hn (congrArg Source.name h).symm
  · intro min st; rfl

example : nameS ≠ sMain := by decide

theorem C70_false : ¬ Full := by
  intro h
  obtain ⟨m, s, h1, h2, h3⟩ := C70_main [98] nameS ⟨7, 7⟩ (by decide)
  have := h [98] ⟨7, 7⟩ [.create ⟨nameS, ⟨7, 7⟩, []⟩ false] (by simp [Legal]) (by simp [uuids, Legal])
  rw [h1] at this
  have := this.2.1 (.part m 0 .id) (.part s 0 .id) (by simp [Valid]) (by simp [Valid]) (h3 0 .id)
  cases this
  exact h2 rfl

/-- In a directory with a name of 4050 bytes, seven digits of the names of the
partition files are left: partitions below 10^13 all have the same file, in all
states. -/
theorem C70_cut (base : List Nat) (s : Source) (hb : base.length = 4050) (hs : s.path = [])
    (m n : Nat) (hm : m < 10000000000000) (hn : n < 10000000000000) (st st' : FState) :
    path base (.part s m st) = path base (.part s n st') := by
  have key : ∀ k, k < 10000000000000 → ∀ t, path base (.part s k t) =
      base ++ slash :: (Uuid.text s.uuid ++ slash :: List.replicate 7 48) := by
    intro k hk t
    have hd : ∃ r, idName k t = List.replicate 7 48 ++ r := by
      refine ⟨decPad 13 k ++ suf t, ?_⟩
      rw [idName_suf]
      simp only [decPad]
      have e : ∀ w, 13 ≤ w → k / 10 ^ w = 0 := by
        intro w hw
        refine Nat.div_eq_of_lt (Nat.lt_of_lt_of_le hk ?_)
        exact (Nat.pow_le_pow_right (by decide : 10 > 0) hw : 10 ^ 13 ≤ 10 ^ w)
      rw [e 19 (by decide), e 18 (by decide), e 17 (by decide), e 16 (by decide), e 15 (by decide),
        e 14 (by decide), e 13 (by decide)]
      rfl
    obtain ⟨r, hr⟩ := hd
    have hl := idName_length k t
    show source_pathfmt base s _ = _
    unfold source_pathfmt snprintf PATH_MAX
    dsimp only
    rw [List.take_of_length_le (by omega : (idName k t).length ≤ 512 - 1), hr]
    have hroot : root base s = base := by simp [root, hs]
    rw [hroot]
    have e : base ++ slash :: (Uuid.text s.uuid ++ slash :: (List.replicate 7 48 ++ r)) =
        (base ++ slash :: (Uuid.text s.uuid ++ slash :: List.replicate 7 48)) ++ r := by simp
    rw [e, List.take_append_of_le_length, List.take_of_length_le]
    · simp [C45.text_length, hb]
    · simp [C45.text_length, hb]
  rw [key m hm st, key n hn st']

example : ∃ (base : List Nat) (s : Source), base.length = 4050 ∧ s.path = [] :=
  ⟨List.replicate 4050 97, ⟨nameS, ⟨1, 1⟩, []⟩, by rw [List.length_replicate], rfl⟩

/-- In a directory with a name of 4083 bytes, the path of the configuration file
fills the array: the old copy, which saving the configuration begins with
removing, is the configuration file itself. -/
theorem C70_config (base : List Nat) (hb : base.length = 4083) :
    path base .configOld = path base .config ∧ (path base .config).length = 4095 ∧
      path base .config = base ++ sConfig := by
  have h : config_path base = base ++ sConfig := by
    unfold config_path snprintf PATH_MAX
    rw [List.take_of_length_le]; simp [sConfig, hb]
  have hl : (base ++ sConfig).length = 4095 := by simp [sConfig, hb]
  simp only [path]
  refine ⟨?_, by rw [h, hl], h⟩
  unfold old_path snprintf PATH_MAX
  rw [h, List.take_append_of_le_length (by omega), List.take_of_length_le (by omega)]

example : ∃ base : List Nat, base.length = 4083 := ⟨List.replicate 4083 97, by rw [List.length_replicate]⟩

end Verif.C70
