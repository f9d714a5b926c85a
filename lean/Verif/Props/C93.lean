import Verif.Proofs.C93
import Verif.Proofs.C93Lost

/-!
C93. Every file that is opened is closed once.

`Verif.Descr` follows every descriptor of an environment: those of the lock of the
directory, of the log file, of the log of writes, of the partitions, of the files a
merge is writing, and of the files that are open inside a function, with every call
that may fail failing at will.

No descriptor is closed twice and nobody uses the one of another, whatever fails and
whatever is called (C93_closed_once). That all are closed after monotone_free
(`AllClosed`) is false: a refresh that fails at its first rename, a download whose
file turns out to be damaged and is downloaded again, a rotation that fails at the
sync, and a failing monotone_open each lose one. What is proved instead: each such
failure loses at most one, and nothing else loses any (C93_bound_partial), so with
none of them everything is closed (C93_closed_partial).
-/
namespace Verif.C93
open Verif.Descr Spec.C93

/-- Whatever is called and whatever fails: no descriptor is closed that is not open
(`runs` has a result), every descriptor that is held is open, and it is held once. -/
theorem C93_closed_once (h : List (Op × List Bool)) :
    ∃ w bs, runs init h = some (w, bs) ∧ Owned w ∧ w.fds.Nodup := by
  obtain ⟨w, bs, hr, hs⟩ := runs_sane h sane_init
  exact ⟨w, bs, hr, ⟨hs.2.2.1, hs.2.2.2⟩, hs.1⟩

/-- After monotone_free no more descriptors are open than operations have failed, of
those that may lose one. -/
theorem C93_bound_partial {h : List (Op × List Bool)} {w : World} {bs : List Bool} (hl : Life h)
    (hr : runs init h = some (w, bs)) : w.fds.length ≤ failures h bs :=
  life_bound hl hr

/-- `AllClosed` without failures of opens, downloads, refreshes and rotations with a
sync: uploads, drops, rotations without a sync and files read or written as a whole
may fail. -/
theorem C93_closed_partial {h : List (Op × List Bool)} {w : World} {bs : List Bool} (hl : Life h)
    (hf : failures h bs = 0) (hr : runs init h = some (w, bs)) : w.fds = [] :=
  List.eq_nil_of_length_eq_zero (Nat.le_zero.1 (hf ▸ life_bound hl hr))

/-- Between operations, without such failures, every open descriptor is held by the
environment, by a partition that has a file, or by a worker. -/
theorem C93_held_partial {h : List (Op × List Bool)} {w : World} {bs : List Bool} (ha : Alive h)
    (hf : failures h bs = 0) (hr : runs init h = some (w, bs)) :
    ∀ d ∈ w.fds, ∃ s, Live w s ∧ w.files s = some d := by
  obtain ⟨⟨_, ⟨L, hl, hL⟩, _, _⟩, _⟩ := alive_good ha hr
  rw [hf] at hl
  have : L = [] := List.eq_nil_of_length_eq_zero (Nat.le_zero.1 hl)
  subst this
  intro d hd
  rcases hL d hd with h | ⟨s, hs, hf⟩
  · cases h
  · refine ⟨s, ?_, hf⟩
    cases s with
    | part id =>
      refine Classical.byContradiction fun hc => hs fun p hp => ?_
      cases hpi : p.id with
      | false => rfl
      | true => exact absurd ⟨p, hp, hpi⟩ hc
    | merged r => exact Nat.not_le.1 hs
    | lock => trivial
    | log => trivial
    | wal => trivial
    | _ => exact absurd trivial hs

/-- They do not pile up: three for the environment, one for each partition, one for
each worker, and one for each such failure. -/
theorem C93_open_partial {h : List (Op × List Bool)} {w : World} {bs : List Bool} (ha : Alive h)
    (hr : runs init h = some (w, bs)) : w.fds.length ≤ 3 + w.refs.length + w.workers + failures h bs :=
  good_bound (alive_good ha hr)

/-! ### Examples -/

/-- A directory with a settings file, a partition on the storage, one on the cloud and
a log of two files. -/
def dir1 : Start :=
  ⟨true, true, [(0, ⟨true, false⟩), (100, ⟨false, true⟩)], true, 2, true, 2⟩

/-- Calls succeed `n` times, then one fails. -/
def failAt (n : Nat) : List Bool := List.replicate n true ++ [false]

/-- Operations of all kinds; an upload fails while it copies the index and a drop
fails to remove the file. -/
def mid1 : List (Op × List Bool) :=
  [(.create 200, []), (.refresh 0 200, []), (.upload 0, failAt 4), (.upload 0, []), (.dropStorage 0, failAt 0),
   (.dropStorage 0, []), (.download 100, []), (.dropCloud 100, []), (.refresh 1 100, []), (.refreshCommand 200, []),
   (.rotate true, []), (.rotate false, failAt 0), (.temporary true, failAt 1), (.temporary false, []), (.dropStorage 200, []),
   (.dropReference 200, [])]

/-- A life in which nothing that may lose a descriptor fails. -/
def life1 : List (Op × List Bool) := (.start dir1, []) :: (mid1 ++ [(.free, [])])

theorem mid1_between : ∀ x ∈ mid1, Between x.1 := by
  intro x hx
  simp only [mid1, List.mem_cons, List.not_mem_nil, or_false] at hx
  rcases hx with rfl | rfl | rfl | rfl | rfl | rfl | rfl | rfl | rfl | rfl | rfl | rfl | rfl | rfl | rfl | rfl <;> trivial

theorem life1_life : Life life1 := ⟨dir1, [], mid1, [], rfl, by decide, mid1_between⟩

theorem alive1 : Alive ((.start dir1, []) :: mid1) := ⟨dir1, [], mid1, rfl, by decide, mid1_between⟩

/-- How a history ends: the open descriptors and which operations failed. -/
def ends (h : List (Op × List Bool)) : Option (List Nat × List Bool) := (runs init h).map fun x => (x.1.fds, x.2)

set_option maxRecDepth 100000 in
/-- The life meets the hypotheses; four operations of it fail, none of the kind that
loses a descriptor. -/
example : Life life1 ∧ (∃ w bs, runs init life1 = some (w, bs) ∧ failures life1 bs = 0 ∧ w.fds = []) ∧
    (ends life1).map (fun x => (x.2.filter id).length) = some 4 := by
  refine ⟨life1_life, ?_, by decide +kernel⟩
  have h : (ends life1).map (fun x => (x.1, failures life1 x.2)) = some ([], 0) := by decide +kernel
  obtain ⟨w, bs, hr, _⟩ := C93_closed_once life1
  simp only [ends, hr, Option.map_some, Option.some.injEq, Prod.mk.injEq] at h
  exact ⟨w, bs, hr, h.2, h.1⟩

set_option maxRecDepth 100000 in
/-- Before it is freed four descriptors are open: the lock, the log file, the log and
the partition at 100. -/
example : Alive ((.start dir1, []) :: mid1) ∧
    (ends ((.start dir1, []) :: mid1)).map (fun x => (x.1.length, failures ((.start dir1, []) :: mid1) x.2)) = some (4, 0) :=
  ⟨alive1, by decide +kernel⟩

/-! ### The failures that lose a descriptor -/

theorem one_between {op : Op} {io : List Bool} (h : Between op) : ∀ x ∈ [(op, io)], Between x.1 := by
  intro x hx
  rw [List.mem_singleton] at hx
  subst hx
  exact h

/-- A refresh whose first rename fails: the reference has the new partition, the old
one is forgotten with its file open (engine/engine/refresh.c:182). -/
def lifeRefresh : List (Op × List Bool) := [(.start dir1, []), (.refresh 0 0, failAt 3), (.free, [])]

/-- A download whose file is damaged, and another one: the second opens the file again
over the descriptor of the first (engine/io/part.c:174, runtime/runtime/file.h:63). -/
def lifeDownload : List (Op × List Bool) := [(.start dir1, []), (.download 100, failAt 9), (.download 100, []), (.free, [])]

/-- A rotation whose sync fails: the old file is not closed (engine/wal/wal.c:93-95). -/
def lifeRotate : List (Op × List Bool) := [(.start dir1, []), (.rotate true, failAt 1), (.free, [])]

/-- An open that fails at the index of a partition: it has no reference yet, and
nobody frees it (engine/engine/engine_recover.c:231, engine/engine/engine.c:64-76). -/
def lifeOpen : List (Op × List Bool) := [(.start dir1, failAt 15), (.free, [])]

set_option maxRecDepth 100000 in
/-- C93 in full is false: each of the four leaves a descriptor open after
monotone_free. -/
theorem C93_all_false : ¬ AllClosed ∧
    (Life lifeRefresh ∧ ends lifeRefresh = some ([4], [false, true, false])) ∧
    (Life lifeDownload ∧ ends lifeDownload = some ([12], [false, true, false, false])) ∧
    (Life lifeRotate ∧ ends lifeRotate = some ([7], [false, true, false])) ∧
    (Life lifeOpen ∧ ends lifeOpen = some ([4], [true, false])) := by
  have l1 : Life lifeRefresh := ⟨dir1, [], _, [], rfl, by decide, one_between (op := .refresh 0 0) trivial⟩
  have e1 : ends lifeRefresh = some ([4], [false, true, false]) := by decide +kernel
  refine ⟨fun hall => ?_, ⟨l1, e1⟩, ⟨⟨dir1, [], [(.download 100, failAt 9), (.download 100, [])], [], rfl, by decide, ?_⟩, by decide +kernel⟩,
    ⟨⟨dir1, [], _, [], rfl, by decide, one_between (op := .rotate true) trivial⟩, by decide +kernel⟩,
    ⟨dir1, failAt 15, [], [], rfl, by decide, nofun⟩, by decide +kernel⟩
  · obtain ⟨w, bs, hr, _⟩ := C93_closed_once lifeRefresh
    have h0 := hall _ _ _ l1 hr
    simp only [ends, hr, Option.map_some, Option.some.injEq, Prod.mk.injEq] at e1
    rw [h0] at e1
    cases e1.1
  · intro x hx
    simp only [List.mem_cons, List.not_mem_nil, or_false] at hx
    rcases hx with rfl | rfl <;> trivial

theorem start_none : (runs init [(.start dirNone, [])]).map (fun x => (x.1.workers, x.1.refs.length, x.1.fds)) =
      some (0, 0, [4, 0]) ∧
    (runs init [(.start dirNone, [])]).map (fun x => (x.1.files .log, x.1.files .wal, x.1.files .lock)) =
      some (none, some 4, some 0) ∧
    (runs init [(.start dirNone, [])]).map (fun x => (x.1.next, x.2)) = some (6, [false]) := by
  refine ⟨?_, ?_, ?_⟩ <;> decide +kernel

/-- The bound of C93_bound_partial is reached for every number: a handle whose log is
rotated `n` times, with the sync failing each time, leaves `n` descriptors open
after monotone_free. -/
theorem C93_bound_reached (n : Nat) : ∃ h w bs, Life h ∧ runs init h = some (w, bs) ∧ failures h bs = n ∧
    w.fds.length = n := by
  obtain ⟨w0, b0, s0, _⟩ := C93_closed_once [(.start dirNone, [])]
  have e0 := start_none
  rw [s0] at e0
  simp only [Option.map_some, Option.some.injEq, Prod.mk.injEq] at e0
  obtain ⟨⟨q1, q2, q6⟩, ⟨q3, q4, q5⟩, q7, q8⟩ := e0
  subst q8
  have s0 : step init (.start dirNone) [] = some (w0, false) := by
    rw [runs] at s0
    cases hs : step init (.start dirNone) [] with
    | none => rw [hs] at s0; cases s0
    | some x =>
      obtain ⟨x1, x2⟩ := x
      rw [hs] at s0
      simp only [Option.bind_some, runs, Option.map_some, Option.some.injEq, Prod.mk.injEq, List.cons.injEq] at s0
      rw [s0.1, s0.2.1]
  have r0 : Rotated 0 w0 := ⟨q1, List.length_eq_zero_iff.1 q2, q3, ⟨4, 0, q4, q5, by rw [q6]; simp, by rw [q6]; simp, by decide⟩, by rw [q6]; rfl,
    by rw [q6, q7]; simp⟩
  obtain ⟨w1, s1, r1⟩ := rotate_steps n 0 w0 r0
  rw [Nat.zero_add] at r1
  obtain ⟨w2, s2, r2⟩ := free_step r1
  refine ⟨(.start dirNone, []) :: (List.replicate n (.rotate true, [true, false]) ++ [(.free, [])]), w2,
    false :: (List.replicate n true ++ [false]), ⟨dirNone, [], _, [], rfl, by decide, ?_⟩, ?_, ?_, r2⟩
  · intro x hx
    rw [List.eq_of_mem_replicate hx]
    trivial
  · rw [runs, s0]
    show Option.map _ (runs w0 _) = _
    rw [s1, runs, s2]
    rfl
  · unfold failures
    rw [List.zip_cons_cons, List.zip_append (by simp), List.filter_cons]
    simp [Risky, List.zip_replicate]

/-- With three rotations that fail, three descriptors are left. -/
example : ends ((.start dirNone, []) :: (List.replicate 3 (.rotate true, failAt 1) ++ [(.free, [])])) =
    some ([7, 6, 4], [false, true, true, true, false]) := by decide +kernel

set_option maxRecDepth 100000 in
/-- monotone_open on the handle once more after it has failed: the descriptor with the
lock of the directory is overwritten, the lock is refused to the new one, and after
monotone_free the old one is still open and has the lock (main/main/main.c:145). -/
theorem C93_again_false : (runs init [(.start dir1, failAt 7), (.start dir1, []), (.free, [])]).map
    (fun x => (x.1.fds, x.1.locks, x.2)) = some ([0], [0], [true, true, false]) := by
  decide +kernel

end Verif.C93
