import Verif.Proofs.WholePlain

/-! C84: the database as a whole, from its bytes. -/
namespace Verif.C84
open Spec Io Whole

/-- Partial: from an empty directory, after any history of batches, rotations of
the log, refreshes in steps, and crashes with restart from the bytes on disk, also
in the middle of a record of the log or of a new partition file, the cursor
returns the last version of every key that is not a delete, in order.  Missing:
garbage collection of the log between wal_write and engine_commit, or between
refresh_apply and the deletion of the old file (see C84_whole_false); batches after
a torn record before the log is rotated (C84_torn_false), and the rotation of a
log file that has nothing but a torn record (C84_rotate_false); histories beyond
the limits of C03, C07 and C15.  A batch that fails before or in wal_write leaves
no trace; missing: one without events (C84_empty_false), one whose record is
complete (C84_fault_false), and those that make a table of several pages (see
C09_false_split).  Refreshes may fail while they merge; missing: another refresh of
the partition before the next start (C84_retry_false). -/
theorem C84_whole_partial (env : Env) (ops : List Op) (w0 : Db) (hl : Limits env (tried ops))
    (hn : ops.length < 4294967296) (hc : create env = .ok w0) (h1 : Along env (Called env) w0 ops)
    (h2 : Along env (Quiet env.crcOn) w0 ops) : ∃ w, run env w0 ops = .ok w ∧ Shows env w (accepted ops) := by
  obtain ⟨w, e, hw⟩ := create_rel env (tried ops)
  rw [hc] at e
  cases e
  obtain ⟨w', db', H', k', n', e1, e2⟩ := run_rel hl ops [] [] 0 0 w0 Dur.init [] hw (by omega) h1 h2 (List.Sublist.refl _)
  exact ⟨w', e1, shows_rel e2 hl⟩

/-- Partial: the same for a storage without compression and encryption, with
limits on the events alone: at most 512 versions, ids below 2^31 - interval, half
a GiB.  Missing: as above. -/
theorem C84_plain_partial (env : Env) (ops : List Op) (w0 : Db) (hi : 0 < env.iv ∧ env.iv < 2147483648)
    (hp : env.src.compression = 0 ∧ env.src.encryption = 0) (hwf : ∀ e ∈ tried ops, WF e)
    (hid : ∀ e ∈ tried ops, e.id + env.iv ≤ 2147483648) (h512 : (tried ops).length ≤ 512)
    (hsz : 24 + ((tried ops).map fun e => 18 + 2 * e.key.length + e.value.length).sum ≤ 536870912)
    (hn : ops.length < 4294967296) (hc : create env = .ok w0) (h1 : Along env (Called env) w0 ops)
    (h2 : Along env (Quiet env.crcOn) w0 ops) : ∃ w, run env w0 ops = .ok w ∧ Shows env w (accepted ops) := by
  refine C84_whole_partial env ops w0 ⟨hi, by omega, ?_, ?_, ?_, plain_fits hp.1 hp.2 hwf hsz (by omega)⟩ hn hc h1 h2
  · intro e he
    rw [if_pos hp.2] at he
    cases he
  · intro e he
    have := Nat.div_mul_le_self e.id env.iv
    have := hid e he
    omega
  · intro q
    exact C11.short_tame _ (Nat.le_trans (List.length_filter_le _ _) h512)

/-! Concrete histories. -/

/-- No compression, no encryption, partitions of 100. -/
def env1 : Env :=
  { cs := C11.plain, mc := memCmpStd, crcOn := true, iv := 100
    src := { region_size := 40, crc := true, compression := 0, encryption := 0 } }

def le1 (e : Event) : Wal.LogEvent := ⟨e, e.key, e.key⟩
def a1 : Event := ⟨5, 0, [1], [7]⟩
def a2 : Event := ⟨105, 0, [], [8, 8]⟩
/-- The delete of `a1`. -/
def a3 : Event := ⟨5, 1, [1], []⟩
def a4 : Event := ⟨6, 0, [2, 2], [9]⟩
/-- Another version of `a4`. -/
def a6 : Event := ⟨6, 0, [2, 2], [4, 4]⟩
/-- In a partition of its own. -/
def a7 : Event := ⟨305, 0, [3], []⟩
/-- The delete of `a4`. -/
def a8 : Event := ⟨6, 1, [2, 2], []⟩

/-- Two batches, a refresh of the first partition in full, and a crash. -/
def ops1 : List Op :=
  [.log [le1 a1, le1 a2], .commit, .rotate 0, .begin_ 5, .log [le1 a3], .commit, .merge 5 (·.key) 1 2, .apply_ 5, .complete 5,
   .delete 5, .finish 5, .crash]

/-- Then garbage collection, a crash in the second refresh, a crash in the middle
of a record, rotation of the log, a batch on top, two refreshes that fail, with and
without a file, and two batches that fail, before and in wal_write. -/
def ops2 : List Op :=
  ops1 ++ [.gc, .begin_ 5, .cut 5 [1, 2, 3], .tear [le1 a2] 30, .rotate 0, .log [le1 a4], .commit, .begin_ 5,
    .fail 5 (some [1, 2, 3]), .begin_ 105, .fail 105 none, .reject [a6, a7, a8], .fault [le1 a8, le1 a7] 30, .crash]

def tornOk (env : Env) (w : Db) (es : List Wal.LogEvent) (n : Nat) : Bool :=
  match Wal.batch env.crcOn (w.wal.lsn + 1) es with
  | .ok b => n < b.length
  | _ => false

/-- `Along` of `Called` for these. -/
def okStep (env : Env) (w : Db) : Op → Bool
  | .log _ => w.pending.isNone
  | .crash => w.wal.dir.files.all fun f => f.2.length ≤ 3221225472
  | .cut _ _ => w.wal.dir.files.all fun f => f.2.length ≤ 3221225472
  | .tear es n => w.pending.isNone && tornOk env w es n && w.wal.dir.files.all fun f => f.2.length + n ≤ 3221225472
  | .reject _ => w.pending.isNone
  | .fault _ _ => w.pending.isNone
  | _ => true

def okAlong (env : Env) : Db → List Op → Bool
  | _, [] => true
  | w, op :: ops => okStep env w op && match step env w op with
    | .ok w' => okAlong env w' ops
    | _ => false

def fromNew (env : Env) (f : Db → Bool) : Bool :=
  match create env with
  | .ok w => f w
  | _ => false

set_option maxRecDepth 100000 in
theorem ok2 : fromNew env1 (fun w => okAlong env1 w ops2) = true := by decide +kernel

/-- What the operations themselves must meet. -/
def Static (env : Env) : Op → Prop
  | .log es => Wal.Calm env.crcOn es ∧ Wal.Fits es
  | .begin_ id => id < 2147483648
  | .merge id pad tc tr => id < 2147483648 ∧ (∀ e, e.key.length ≤ (pad e).length) ∧
      tc < 18446744073709551616 ∧ tr < 18446744073709551616
  | .apply_ id => id < 2147483648
  | .complete id => id < 2147483648
  | .delete id => id < 2147483648
  | .finish id => id < 2147483648
  | .tear es _ => Wal.Calm env.crcOn es ∧ Wal.Fits es
  | .cut id _ => id < 2147483648
  | .fail id _ => id < 2147483648
  | .reject es => ∀ e ∈ es, WF e
  | .fault es _ => Wal.Calm env.crcOn es ∧ Wal.Fits es
  | _ => True

theorem called_step {env : Env} {w : Db} {op : Op} (h1 : okStep env w op = true) (hst : Static env op) : Called env w op := by
  cases op with
  | log es =>
    have h1 : w.pending.isNone = true := h1
    exact ⟨by simpa using h1, hst⟩
  | reject es =>
    have h1 : w.pending.isNone = true := h1
    exact ⟨by simpa using h1, hst⟩
  | fault es _ =>
    have h1 : w.pending.isNone = true := h1
    exact ⟨by simpa using h1, hst⟩
  | crash =>
    have h1 : (w.wal.dir.files.all fun f => f.2.length ≤ 3221225472) = true := h1
    intro f hf
    simpa using List.all_eq_true.1 h1 f hf
  | cut id b =>
    have h1 : (w.wal.dir.files.all fun f => f.2.length ≤ 3221225472) = true := h1
    refine ⟨hst, fun f hf => ?_⟩
    simpa using List.all_eq_true.1 h1 f hf
  | tear es n =>
    have h1 : (w.pending.isNone && tornOk env w es n && w.wal.dir.files.all fun f => f.2.length + n ≤ 3221225472) = true := h1
    simp only [Bool.and_eq_true] at h1
    refine ⟨by simpa using h1.1.1, hst.1, hst.2, ?_, fun f hf => by simpa using List.all_eq_true.1 h1.2 f hf⟩
    intro b hb
    have := h1.1.2
    unfold tornOk at this
    rw [hb] at this
    simpa using this
  | _ => exact hst

theorem along_called (env : Env) : ∀ (ops : List Op) (w : Db), okAlong env w ops = true → (∀ op ∈ ops, Static env op) →
    Along env (Called env) w ops := by
  intro ops
  induction ops with
  | nil => intro w _ _; trivial
  | cons op ops ih =>
    intro w h hs
    unfold okAlong at h
    rw [Bool.and_eq_true] at h
    refine ⟨called_step h.1 (hs op (by simp)), fun w' hw => ?_⟩
    have h2 := h.2
    rw [hw] at h2
    exact ih w' h2 fun o ho => hs o (by simp [ho])

theorem static_log (es : List Event) (hne : es ≠ []) (hw : ∀ e ∈ es, WF e)
    (hs : Wal.recSize (es.map le1) ≤ bufLimit) : Static env1 (.log (es.map le1)) := by
  refine ⟨?_, by simpa using hne, ?_, hs⟩
  · intro e he
    obtain ⟨x, _, rfl⟩ := List.mem_map.1 he
    exact ⟨Nat.le_refl _, fun _ => ⟨Nat.le_refl _, rfl⟩⟩
  · intro e he
    obtain ⟨x, hx, rfl⟩ := List.mem_map.1 he
    exact hw x hx

theorem static2 : ∀ op ∈ ops2, Static env1 op := by
  intro op hop
  simp only [ops2, ops1, List.cons_append, List.nil_append, List.mem_cons, List.not_mem_nil, or_false] at hop
  rcases hop with rfl | rfl | rfl | rfl | rfl | rfl | rfl | rfl | rfl | rfl | rfl | rfl | rfl | rfl | rfl | rfl | rfl | rfl |
    rfl | rfl | rfl | rfl | rfl | rfl | rfl | rfl
  · exact static_log [a1, a2] (by simp) (by simp [a1, a2, WF]) (by decide)
  · trivial
  · trivial
  · exact (by decide : 5 < 2147483648)
  · exact static_log [a3] (by simp) (by simp [a3, WF]) (by decide)
  · trivial
  · exact ⟨by decide, fun e => Nat.le_refl _, by decide, by decide⟩
  · exact (by decide : 5 < 2147483648)
  · exact (by decide : 5 < 2147483648)
  · exact (by decide : 5 < 2147483648)
  · exact (by decide : 5 < 2147483648)
  · trivial
  · trivial
  · exact (by decide : 5 < 2147483648)
  · exact (by decide : 5 < 2147483648)
  · exact static_log [a2] (by simp) (by simp [a2, WF]) (by decide)
  · trivial
  · exact static_log [a4] (by simp) (by simp [a4, WF]) (by decide)
  · trivial
  · exact (by decide : 5 < 2147483648)
  · exact (by decide : 5 < 2147483648)
  · exact (by decide : 105 < 2147483648)
  · exact (by decide : 105 < 2147483648)
  · show ∀ e ∈ [a6, a7, a8], WF e
    simp [a6, a7, a8, WF]
  · exact static_log [a8, a7] (by simp) (by simp [a8, a7, WF]) (by decide)
  · trivial

/-- Right after a start nothing is under way. -/
theorem quiet_start {env : Env} {disk : Nat → Files} {names : List Nat} {files : List (Nat × Bytes)} {w : Db}
    (h : start env disk names files = .ok w) : Quiet env.crcOn w .gc := by
  unfold start at h
  obtain ⟨r, _, h⟩ := Res.bind_eq_ok.1 h
  obtain ⟨⟨rs, s⟩, _, h⟩ := Res.bind_eq_ok.1 h
  obtain ⟨m, _, h⟩ := Res.bind_eq_ok.1 h
  cases h
  exact ⟨rfl, fun p => ⟨nofun, nofun⟩⟩

/-- The current log file has the bytes of `es`, or begins with them. -/
def holdsB (crcOn whole : Bool) (w : Db) (es : List C22.Entry) : Bool :=
  match w.wal.current, C22.content crcOn es with
  | some c, .ok bs => w.wal.dir.files.any fun f => f.1 == c.id && (if whole then f.2 == bs else f.2.take bs.length == bs)
  | _, _ => false

def roomB (w : Db) (es : List Event) : Bool :=
  decide (es.length ≤ 512) && es.all fun e => match find w.map e.id with
    | .ok (some x) => x.v.val.act.count + es.length ≤ 512
    | _ => true

theorem roomB_room {w : Db} {es : List Event} (h : roomB w es = true) : Room w es := by
  unfold roomB at h
  rw [Bool.and_eq_true] at h
  refine ⟨by simpa using h.1, fun e he x hx => ?_⟩
  have := List.all_eq_true.1 h.2 e he
  rw [hx] at this
  simpa using this

/-- The refresh of the partition found has not failed. -/
def calmB (w : Db) (id : Nat) : Bool :=
  match find w.map id with
  | .ok (some x) => match w.phase x.v.min with
    | .failed => false
    | _ => true
  | _ => true

/-- `Along` of `Quiet`, where garbage collection comes right after a start
(`fresh`) and the records in the current log file are given. -/
def quietAlong (env : Env) : Bool → Db → List (Op × List C22.Entry) → Bool
  | _, _, [] => true
  | fresh, w, (op, es) :: ops =>
    (match op with
      | .gc => fresh
      | .log _ => holdsB env.crcOn true w es
      | .tear _ _ => holdsB env.crcOn true w es
      | .rotate _ => es.length == 1 && holdsB env.crcOn false w es
      | .reject l => !l.isEmpty && roomB w l
      | .begin_ id => calmB w id
      | .fault l n => holdsB env.crcOn true w es && (roomB w (l.map (·.event)) && tornOk env w l n)
      | _ => true) &&
    match step env w op with
    | .ok w' => quietAlong env (match op with | .crash => true | _ => false) w' ops
    | _ => false

theorem holds_clean {crcOn : Bool} {w : Db} {es : List C22.Entry} (h : holdsB crcOn true w es = true)
    (hg : ∀ e ∈ es, e.Good crcOn) : Clean crcOn w := by
  unfold holdsB at h
  split at h
  · rename_i c bs h1 h2
    rw [List.any_eq_true] at h
    obtain ⟨⟨i, b⟩, hf, h⟩ := h
    simp only [Bool.and_eq_true, beq_iff_eq, if_true] at h
    obtain ⟨rfl, rfl⟩ := h
    exact ⟨c, b, es, h1, hf, hg, h2⟩
  · cases h

theorem holds_begun {crcOn : Bool} {w : Db} {e : C22.Entry} (h : holdsB crcOn false w [e] = true)
    (hg : e.Good crcOn) : Begun crcOn w := by
  unfold holdsB at h
  split at h
  · rename_i c bs h1 h2
    rw [List.any_eq_true] at h
    obtain ⟨⟨i, b⟩, hf, h⟩ := h
    simp only [Bool.and_eq_true, beq_iff_eq, Bool.false_eq_true, if_false] at h
    obtain ⟨rfl, h⟩ := h
    obtain ⟨b1, b2, g1, g2, g3⟩ := content_cons h2
    have g2 := Res.ok.inj g2
    subst g2
    rw [List.append_nil] at g3
    subst g3
    refine ⟨c, e, bs, b.drop bs.length, h1, ?_, hg, g1⟩
    have : bs ++ b.drop bs.length = b := by
      rw [← h, List.length_take]
      rw [show List.drop (min bs.length b.length) b = List.drop bs.length b by
        by_cases hh : bs.length ≤ b.length
        · rw [Nat.min_eq_left hh]
        · rw [Nat.min_eq_right (by omega), List.drop_length, List.drop_of_length_le (by omega)]]
      exact List.take_append_drop _ _
    rw [this]
    exact hf
  · cases h

theorem along_quiet (env : Env) : ∀ (ops : List (Op × List C22.Entry)) (fresh : Bool) (w : Db),
    quietAlong env fresh w ops = true → (fresh = true → Quiet env.crcOn w .gc) →
    (∀ o ∈ ops, ∀ e ∈ o.2, e.Good env.crcOn) → Along env (Quiet env.crcOn) w (ops.map (·.1)) := by
  intro ops
  induction ops with
  | nil => intro fresh w _ _ _; trivial
  | cons o ops ih =>
    intro fresh w h hf hg
    obtain ⟨op, es⟩ := o
    unfold quietAlong at h
    rw [Bool.and_eq_true] at h
    obtain ⟨h1, h2⟩ := h
    have hge := hg (op, es) (by simp)
    refine ⟨?_, fun w' hw => ?_⟩
    · dsimp only
      cases op with
      | gc => exact hf h1
      | log _ => exact holds_clean h1 hge
      | tear _ _ => exact holds_clean h1 hge
      | reject l =>
        dsimp only at h1
        rw [Bool.and_eq_true] at h1
        refine ⟨?_, roomB_room h1.2⟩
        rintro rfl
        cases h1.1
      | fault l n =>
        dsimp only at h1
        rw [Bool.and_eq_true, Bool.and_eq_true] at h1
        refine ⟨holds_clean h1.1 hge, roomB_room h1.2.1, fun b hb => ?_⟩
        have := h1.2.2
        unfold tornOk at this
        rw [hb] at this
        simpa using this
      | begin_ id =>
        intro x hx hw
        dsimp only at h1
        unfold calmB at h1
        rw [hx] at h1
        dsimp only at h1
        rw [hw] at h1
        cases h1
      | rotate _ =>
        dsimp only at h1
        rw [Bool.and_eq_true] at h1
        cases es with
        | nil => cases h1.1
        | cons e es =>
          cases es with
          | nil => exact .inr (holds_begun h1.2 (hge e (by simp)))
          | cons _ _ => simp at h1
      | _ => trivial
    · dsimp only at hw
      rw [hw] at h2
      refine ih _ w' h2 ?_ fun o ho => hg o (by simp [ho])
      intro hfr
      cases op with
      | crash => exact quiet_start hw
      | _ => cases hfr

/-- The records in the current log file when there is a batch, a torn record or
a rotation. -/
def recs2 : List (List C22.Entry) :=
  [[], [], [.write 1 [le1 a1, le1 a2]], [], [], [], [], [], [], [], [], [], [], [], [], [.write 2 [le1 a3]], [.write 2 [le1 a3]],
   [], [], [], [], [], [], [], [.write 3 [le1 a4]], []]

theorem good2 : ∀ o ∈ ops2.zip recs2, ∀ e ∈ o.2, e.Good env1.crcOn := by
  have h : ∀ e ∈ recs2.flatten, e.Good env1.crcOn := by
    simp only [recs2, List.flatten_cons, List.flatten_nil, List.nil_append, List.append_nil, List.mem_append, List.mem_singleton]
    rintro e (rfl | rfl | rfl | rfl)
    · exact ⟨by decide, static_log [a1, a2] (by simp) (by simp [a1, a2, WF]) (by decide)⟩
    · exact ⟨by decide, static_log [a3] (by simp) (by simp [a3, WF]) (by decide)⟩
    · exact ⟨by decide, static_log [a3] (by simp) (by simp [a3, WF]) (by decide)⟩
    · exact ⟨by decide, static_log [a4] (by simp) (by simp [a4, WF]) (by decide)⟩
  intro o ho e he
  exact h e (List.mem_flatten.2 ⟨o.2, (List.of_mem_zip ho).2, he⟩)

set_option maxRecDepth 100000 in
theorem quietB2 : fromNew env1 (fun w => quietAlong env1 false w (ops2.zip recs2)) = true := by decide +kernel

theorem quiet2 {w : Db} (h : create env1 = .ok w) : Along env1 (Quiet env1.crcOn) w ops2 := by
  have h2 := quietB2
  unfold fromNew at h2
  rw [h] at h2
  exact along_quiet env1 (ops2.zip recs2) false w h2 nofun good2

theorem wf2 : ∀ e ∈ tried ops2, WF e := by
  simp [tried, ops2, ops1, le1, a1, a2, a3, a4, a6, a7, a8, WF]

theorem limits_env1 {E : List Event} (hwf : ∀ e ∈ E, WF e) (hid : ∀ e ∈ E, e.id ≤ 1000) (hlen : E.length ≤ 512)
    (hsz : 24 + (E.map fun e => 18 + 2 * e.key.length + e.value.length).sum ≤ 536870912) : Limits env1 E := by
  refine ⟨by decide, by decide, ?_, ?_, ?_, plain_fits rfl rfl hwf hsz (by omega)⟩
  · intro e he
    rw [if_pos (show env1.src.encryption = 0 from rfl)] at he
    cases he
  · intro e he
    have := hid e he
    have := Nat.div_mul_le_self e.id env1.iv
    have h : env1.iv = 100 := rfl
    omega
  · intro q
    exact C11.short_tame _ (Nat.le_trans (List.length_filter_le _ _) hlen)

/-- The hypotheses can be met by a history with a refresh, a delete, garbage
collection, crashes between and inside steps, and refreshes and batches that fail. -/
example : ∃ w0, create env1 = .ok w0 ∧ Limits env1 (tried ops2) ∧ ops2.length < 4294967296 ∧
    Along env1 (Called env1) w0 ops2 ∧ Along env1 (Quiet env1.crcOn) w0 ops2 := by
  obtain ⟨w0, h, _⟩ := create_rel env1 []
  have h2 := ok2
  unfold fromNew at h2
  rw [h] at h2
  exact ⟨w0, h, limits_env1 wf2 (by decide) (by decide) (by decide), by decide, along_called _ _ _ h2 static2, quiet2 h⟩

/-- The limits of `C84_plain_partial` for the same history. -/
example : (0 < env1.iv ∧ env1.iv < 2147483648) ∧ (env1.src.compression = 0 ∧ env1.src.encryption = 0) ∧
    (∀ e ∈ tried ops2, WF e) ∧ (∀ e ∈ tried ops2, e.id + env1.iv ≤ 2147483648) ∧ (tried ops2).length ≤ 512 ∧
    24 + ((tried ops2).map fun e => 18 + 2 * e.key.length + e.value.length).sum ≤ 536870912 :=
  ⟨by decide, by decide, wf2, by decide, by decide, by decide⟩

/-- What is read at the end: the delete hides `a1`. -/
def reads (env : Env) (ops : List Op) (fuel : Nat) (es : List Event) : Bool :=
  fromNew env fun w => match run env w ops with
    | .ok w' => match scan env w' fuel with
      | .ok (some M) => M == es
      | _ => false
    | _ => false

set_option maxRecDepth 100000 in
example : reads env1 ops2 20 [a4, a2] = true := by decide +kernel

/-- The same before the crash, between the two batches that fail. -/
def ops2' : List Op := ops2.take 24

set_option maxRecDepth 100000 in
example : reads env1 ops2' 20 [a4, a2] = true := by decide +kernel

/-! Garbage collection in the middle of a refresh. -/

/-- Garbage collection after refresh_apply, then a crash. -/
def ops3 : List Op :=
  [.log [le1 a1], .commit, .rotate 0, .begin_ 5, .merge 5 (·.key) 1 2, .apply_ 5, .gc, .crash]

def noParts (w : Db) : Bool :=
  match w.map.tree with
  | .nil => w.map.count == 0
  | _ => false

def lost (env : Env) (ops : List Op) : Bool :=
  fromNew env fun w => match run env w ops with
    | .ok w' => noParts w'
    | _ => false

set_option maxRecDepth 100000 in
theorem ok3 : fromNew env1 (fun w => okAlong env1 w ops3) = true := by decide +kernel

set_option maxRecDepth 100000 in
theorem lost3 : lost env1 ops3 = true := by decide +kernel

theorem static3 : ∀ op ∈ ops3, Static env1 op := by
  intro op hop
  simp only [ops3, List.mem_cons, List.not_mem_nil, or_false] at hop
  rcases hop with rfl | rfl | rfl | rfl | rfl | rfl | rfl | rfl
  · exact static_log [a1] (by simp) (by simp [a1, WF]) (by decide)
  · trivial
  · trivial
  · exact (by decide : 5 < 2147483648)
  · exact ⟨by decide, fun e => Nat.le_refl _, by decide, by decide⟩
  · exact (by decide : 5 < 2147483648)
  · trivial
  · trivial

/-- Without partitions nothing is read. -/
theorem scan_none {env : Env} {w : Db} (h : noParts w = true) (fuel : Nat) : scan env w (fuel + 1) = .ok (some []) := by
  unfold noParts at h
  split at h
  · rename_i ht
    have hm : w.map = ⟨.nil, 0⟩ := by
      cases hw : w.map with
      | mk t c =>
        rw [hw] at ht h
        simp only [beq_iff_eq] at ht h
        rw [ht, h]
    unfold scan
    rw [hm]
    rfl
  · cases h

/-- False of the code: garbage collection between refresh_apply and the renames
removes the log of what only the file without its name has; after a crash the
event is gone. -/
theorem C84_whole_false : ¬ Full := by
  intro h
  obtain ⟨w0, hw0, _⟩ := create_rel env1 []
  have h2 := ok3
  have h3 := lost3
  unfold lost fromNew at h3
  unfold fromNew at h2
  rw [hw0] at h2 h3
  obtain ⟨w, e1, M, _, hM, n, hn⟩ := h env1 ops3 w0
    (limits_env1 (by simp [tried, ops3, le1, a1, WF]) (by decide) (by decide) (by decide)) (by decide) hw0
    (along_called _ _ _ h2 static3)
  dsimp only at h3
  rw [e1] at h3
  have h4 := hn (n + 1) (by omega)
  rw [scan_none h3] at h4
  cases h4
  have := (hM a1).2 ⟨by decide, by decide⟩
  cases this

/-! Torn records. -/

/-- No garbage collection. -/
def noGc : Op → Bool
  | .gc => false
  | _ => true

/-- A crash in the middle of a record, and a batch before the log is rotated. -/
def ops4 : List Op := [.log [le1 a1], .commit, .tear [le1 a2] 30, .log [le1 a4], .commit, .crash]

/-- A value of zeros with the size of a header in it. -/
def a5 : Event := ⟨7, 0, [], List.replicate 19 0 ++ [21] ++ List.replicate 10 0⟩

/-- A crash in the middle of the first record, rotation, and a shorter record. -/
def ops5 : List Op := [.tear [le1 a5] 64, .rotate 0, .log [le1 a3], .commit, .crash]

/-- The last step fails. -/
def dead (env : Env) (ops : List Op) : Bool :=
  fromNew env fun w => match run env w ops with
    | .ok _ => false
    | _ => true

/-- `Along` of `Called` for a history whose last step need not succeed. -/
def okLast (env : Env) : Db → List Op → Bool
  | _, [] => true
  | w, op :: ops => okStep env w op && match step env w op with
    | .ok w' => okLast env w' ops
    | _ => ops.isEmpty

theorem last_called (env : Env) : ∀ (ops : List Op) (w : Db), okLast env w ops = true → (∀ op ∈ ops, Static env op) →
    Along env (Called env) w ops := by
  intro ops
  induction ops with
  | nil => intro w _ _; trivial
  | cons op ops ih =>
    intro w h hs
    unfold okLast at h
    rw [Bool.and_eq_true] at h
    refine ⟨called_step h.1 (hs op (by simp)), fun w' hw => ?_⟩
    have h2 := h.2
    rw [hw] at h2
    exact ih w' h2 fun o ho => hs o (by simp [ho])

set_option maxRecDepth 100000 in
theorem ok4 : fromNew env1 (fun w => okLast env1 w ops4) = true := by decide +kernel

set_option maxRecDepth 100000 in
theorem dead4 : dead env1 ops4 = true := by decide +kernel

set_option maxRecDepth 100000 in
theorem ok5 : fromNew env1 (fun w => okLast env1 w ops5) = true := by decide +kernel

set_option maxRecDepth 100000 in
theorem dead5 : dead env1 ops5 = true := by decide +kernel

theorem static4 : ∀ op ∈ ops4, Static env1 op := by
  intro op hop
  simp only [ops4, List.mem_cons, List.not_mem_nil, or_false] at hop
  rcases hop with rfl | rfl | rfl | rfl | rfl | rfl
  · exact static_log [a1] (by simp) (by simp [a1, WF]) (by decide)
  · trivial
  · exact static_log [a2] (by simp) (by simp [a2, WF]) (by decide)
  · exact static_log [a4] (by simp) (by simp [a4, WF]) (by decide)
  · trivial
  · trivial

theorem static5 : ∀ op ∈ ops5, Static env1 op := by
  intro op hop
  simp only [ops5, List.mem_cons, List.not_mem_nil, or_false] at hop
  rcases hop with rfl | rfl | rfl | rfl | rfl
  · exact static_log [a5] (by simp) (by simp [a5, WF]) (by decide)
  · trivial
  · exact static_log [a3] (by simp) (by simp [a3, WF]) (by decide)
  · trivial
  · trivial

/-- False of the code: after a crash in the middle of a record, a batch goes behind
the torn bytes, and the next start fails. -/
theorem C84_torn_false : ∃ (env : Env) (ops : List Op) (w0 : Db), Limits env (tried ops) ∧ create env = .ok w0 ∧
    Along env (Called env) w0 ops ∧ (∀ op ∈ ops, noGc op = true) ∧ ∀ w, run env w0 ops ≠ .ok w := by
  obtain ⟨w0, hw0, _⟩ := create_rel env1 []
  have h2 := ok4
  have h3 := dead4
  unfold dead fromNew at h3
  unfold fromNew at h2
  rw [hw0] at h2 h3
  refine ⟨env1, ops4, w0, limits_env1 (by simp [tried, ops4, le1, a1, a4, WF]) (by decide) (by decide) (by decide), hw0,
    last_called _ _ _ h2 static4, by simp [ops4, noGc], fun w hw => ?_⟩
  dsimp only at h3
  rw [hw] at h3
  cases h3

/-- False of the code: when the first record of a log file is torn, rotation opens
the same file at its beginning; a shorter record leaves torn bytes behind it, and
the next start fails. -/
theorem C84_rotate_false : ∃ (env : Env) (ops : List Op) (w0 : Db), Limits env (tried ops) ∧ create env = .ok w0 ∧
    Along env (Called env) w0 ops ∧ (∀ op ∈ ops, noGc op = true) ∧
    (∃ es n wm ops', ops = .tear es n :: .rotate wm :: ops' ∧ accepted ops' ≠ []) ∧ ∀ w, run env w0 ops ≠ .ok w := by
  obtain ⟨w0, hw0, _⟩ := create_rel env1 []
  have h2 := ok5
  have h3 := dead5
  unfold dead fromNew at h3
  unfold fromNew at h2
  rw [hw0] at h2 h3
  refine ⟨env1, ops5, w0, limits_env1 (by simp [tried, ops5, le1, a3, WF]) (by decide) (by decide) (by decide), hw0,
    last_called _ _ _ h2 static5, by simp [ops5, noGc], ⟨_, _, _, _, rfl, by simp [accepted]⟩, fun w hw => ?_⟩
  dsimp only at h3
  rw [hw] at h3
  cases h3

/-! Batches that fail. -/

/-- `Cursor.Raw`, checked. -/
def rawB (env : Env) (w : Db) : Cursor.ECursor → List Event → Bool
  | c, [] => !Cursor.has c && match Cursor.at_ env.cs env.mc c with
    | .ok none => true
    | _ => false
  | c, e :: l => Cursor.has c && (match Cursor.at_ env.cs env.mc c with
    | .ok (some x) => x == e
    | _ => false) && match Cursor.next env.cs env.mc w.map c with
    | .ok c' => rawB env w c' l
    | _ => false

theorem rawB_raw (env : Env) (w : Db) : ∀ (l : List Event) (c : Cursor.ECursor), rawB env w c l = true →
    Cursor.Raw env.cs env.mc w.map c (l.map some) := by
  intro l
  induction l with
  | nil =>
    intro c h
    unfold rawB at h
    rw [Bool.and_eq_true] at h
    obtain ⟨h1, h2⟩ := h
    refine ⟨by simpa using h1, ?_⟩
    split at h2
    · assumption
    · cases h2
  | cons e l ih =>
    intro c h
    unfold rawB at h
    simp only [Bool.and_eq_true] at h
    obtain ⟨⟨h1, h2⟩, h3⟩ := h
    refine ⟨h1, ?_, ?_⟩
    · split at h2
      · rename_i x hx
        rw [hx, eq_of_beq h2]
      · cases h2
    · split at h3
      · rename_i c' hc
        exact ⟨c', hc, ih c' h3⟩
      · cases h3

/-- The cursor, opened at `k` if given, returns `es` and ends. -/
def ends (env : Env) (ops : List Op) (k : Option Event) (es : List Event) : Bool :=
  fromNew env fun w => match run env w ops with
    | .ok w' => match Cursor.open_ env.cs env.mc w'.map k with
      | .ok c => rawB env w' c es
      | _ => false
    | _ => false

/-- A batch whose record is complete when wal_write fails, and a crash. -/
def ops7 : List Op := [.log [le1 a1], .commit, .fault [le1 a2] 1000, .crash]

set_option maxRecDepth 100000 in
theorem ok7 : fromNew env1 (fun w => okAlong env1 w ops7) = true := by decide +kernel

set_option maxRecDepth 100000 in
theorem ends7 : ends env1 ops7 none [a1, a2] = true := by decide +kernel

theorem static7 : ∀ op ∈ ops7, Static env1 op := by
  intro op hop
  simp only [ops7, List.mem_cons, List.not_mem_nil, or_false] at hop
  rcases hop with rfl | rfl | rfl | rfl
  · exact static_log [a1] (by simp) (by simp [a1, WF]) (by decide)
  · trivial
  · exact static_log [a2] (by simp) (by simp [a2, WF]) (by decide)
  · trivial

/-- False of the code: a batch fails because the log cannot be synced; its events
are gone, and come back with the next start. -/
theorem C84_fault_false : ∃ (env : Env) (ops : List Op) (w0 w : Db), Limits env (tried ops) ∧ create env = .ok w0 ∧
    Along env (Called env) w0 ops ∧ (∀ op ∈ ops, noGc op = true) ∧ run env w0 ops = .ok w ∧
    ¬ Shows env w (accepted ops) ∧ Shows env w (tried ops) := by
  obtain ⟨w0, hw0, _⟩ := create_rel env1 []
  have h2 := ok7
  have h3 := ends7
  unfold ends fromNew at h3
  unfold fromNew at h2
  rw [hw0] at h2 h3
  dsimp only at h3
  split at h3
  · rename_i w hw
    split at h3
    · rename_i c hc
      have h4 := Cursor.scan_of_raw hc (rawB_raw env1 w _ c h3)
      refine ⟨env1, ops7, w0, w, limits_env1 (by simp [tried, ops7, le1, a1, a2, WF]) (by decide) (by decide) (by decide), hw0,
        along_called _ _ _ h2 static7, by simp [ops7, noGc], hw, ?_, [a1, a2], by unfold Ascending; decide, ?_, 3, fun fuel hf => h4 fuel (by simpa using hf)⟩
      · rintro ⟨M, _, hM, n, hn⟩
        have h5 := hn (n + 3) (by omega)
        unfold scan at h5
        rw [h4 (n + 3) (by simp)] at h5
        cases h5
        have := (hM a2).1 (by decide)
        revert this
        decide
      · intro e
        have ht : tried ops7 = [a1, a2] := rfl
        rw [ht]
        constructor
        · intro he
          simp only [List.mem_cons, List.not_mem_nil, or_false] at he
          rcases he with rfl | rfl <;> decide
        · rintro ⟨h, _⟩
          have := List.mem_of_getLast? h
          exact (List.mem_filter.1 this).1
    · cases h3
  · cases h3

/-! Refreshes that fail. -/

/-- A refresh that fails, another version, and a second refresh. -/
def ops8 : List Op := [.log [le1 a4], .commit, .begin_ 5, .fail 5 none, .log [le1 a6], .commit, .begin_ 5]

set_option maxRecDepth 100000 in
example : reads env1 (ops8.take 6) 20 [a6] = true := by decide +kernel

set_option maxRecDepth 100000 in
theorem ok8 : fromNew env1 (fun w => okAlong env1 w ops8) = true := by decide +kernel

set_option maxRecDepth 100000 in
theorem ends8 : ends env1 ops8 none [a4] = true := by decide +kernel

theorem static8 : ∀ op ∈ ops8, Static env1 op := by
  intro op hop
  simp only [ops8, List.mem_cons, List.not_mem_nil, or_false] at hop
  rcases hop with rfl | rfl | rfl | rfl | rfl | rfl | rfl
  · exact static_log [a4] (by simp) (by simp [a4, WF]) (by decide)
  · trivial
  · exact (by decide : 5 < 2147483648)
  · exact (by decide : 5 < 2147483648)
  · exact static_log [a6] (by simp) (by simp [a6, WF]) (by decide)
  · trivial
  · exact (by decide : 5 < 2147483648)

/-- False of the code: after a refresh that failed, the next one makes the table of
the older events the current one; they hide the newer ones. -/
theorem C84_retry_false : ∃ (env : Env) (ops : List Op) (w0 w : Db), Limits env (tried ops) ∧ create env = .ok w0 ∧
    Along env (Called env) w0 ops ∧ (∀ op ∈ ops, noGc op = true) ∧ tried ops = accepted ops ∧ run env w0 ops = .ok w ∧
    ∃ old new, lastOf (accepted ops) old = some new ∧ old ≠ new ∧
      ∃ M, old ∈ M ∧ new ∉ M ∧ ∃ n, ∀ fuel ≥ n, scan env w fuel = .ok (some M) := by
  obtain ⟨w0, hw0, _⟩ := create_rel env1 []
  have h2 := ok8
  have h3 := ends8
  unfold ends fromNew at h3
  unfold fromNew at h2
  rw [hw0] at h2 h3
  dsimp only at h3
  split at h3
  · rename_i w hw
    split at h3
    · rename_i c hc
      have h4 := Cursor.scan_of_raw hc (rawB_raw env1 w _ c h3)
      exact ⟨env1, ops8, w0, w, limits_env1 (by simp [tried, ops8, le1, a4, a6, WF]) (by decide) (by decide) (by decide), hw0,
        along_called _ _ _ h2 static8, by simp [ops8, noGc], rfl, hw, a4, a6, by decide, by decide, [a4], by decide, by decide, 2,
        fun fuel hf => h4 fuel (by simpa using hf)⟩
    · cases h3
  · cases h3

/-- False of the code: a batch whose first key is too long. -/
theorem C84_empty_false (env : Env) (w0 : Db) (h : create env = .ok w0) :
    ∃ m, run env w0 [.reject []] = .ub m := by
  obtain ⟨w, e, hw⟩ := create_rel env []
  rw [h] at e
  cases e
  refine ⟨"engine_rollback: log_last of an empty log", ?_⟩
  have hp : w0.pending = none := hw.pending
  unfold run step reject
  rw [hp]
  rfl

end Verif.C84
