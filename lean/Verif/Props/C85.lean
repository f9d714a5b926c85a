import Verif.Proofs.WholeSeek
import Verif.Props.C84

/-! C85: the database as a whole, from its bytes, read from a key on. -/
namespace Verif.C85
open Spec Io Whole C84

/-- Partial: from an empty directory, after any history of C84, a cursor opened at
a key returns the last version of every key at or after it that is not a delete, in
order.  Missing: keys after an event of their id, unless their id is the last of its
partition (see C85_from_false); seeks beyond the limits of C08; and what is
missing in C84_whole_partial. -/
theorem C85_from_partial (env : Env) (ops : List Op) (w0 : Db) (k : Event) (hl : Limits env (tried ops))
    (hn : ops.length < 4294967296) (hc : create env = .ok w0) (h1 : Along env (Called env) w0 ops)
    (h2 : Along env (Quiet env.crcOn) w0 ops) (hk : KeyOk env (tried ops) k) :
    ∃ w, run env w0 ops = .ok w ∧ ShowsFrom env w (accepted ops) k := by
  obtain ⟨w, e, hw⟩ := create_rel env (tried ops)
  rw [hc] at e
  cases e
  obtain ⟨w', db', H', k', n', e1, e2⟩ := run_rel hl ops [] [] 0 0 w0 Dur.init [] hw (by omega) h1 h2 (List.Sublist.refl _)
  exact ⟨w', e1, shows_from e2 hl hk⟩

/-- Partial: the same for a storage without compression and encryption and a
cursor opened at an id alone, with limits on the events: at most 512 versions, ids
below 2^31 - interval, half a GiB.  Missing: keys, and as above. -/
theorem C85_id_partial (env : Env) (ops : List Op) (w0 : Db) (i : Nat) (hi : 0 < env.iv ∧ env.iv < 2147483648)
    (hp : env.src.compression = 0 ∧ env.src.encryption = 0) (hwf : ∀ e ∈ tried ops, WF e)
    (hid : ∀ e ∈ tried ops, e.id + env.iv ≤ 2147483648) (h512 : (tried ops).length ≤ 512)
    (hsz : 24 + ((tried ops).map fun e => 18 + 2 * e.key.length + e.value.length).sum ≤ 536870912)
    (hn : ops.length < 4294967296) (hc : create env = .ok w0) (h1 : Along env (Called env) w0 ops)
    (h2 : Along env (Quiet env.crcOn) w0 ops) (hii : i < 2147483648) :
    ∃ w, run env w0 ops = .ok w ∧ ∃ M, Ascending M ∧
      (∀ e, e ∈ M ↔ (lastOf (accepted ops) e = some e ∧ e.isDelete = false) ∧ i ≤ e.id) ∧
      ∃ n, ∀ fuel ≥ n, scanFrom env w fuel ⟨i, 0, [], []⟩ = .ok (some M) := by
  have hle : ∀ e : Event, evCmp ⟨i, 0, [], []⟩ e ≤ 0 ↔ i ≤ e.id := by
    intro e
    show (if i < e.id then (-1 : Int) else if e.id < i then 1 else lexCmp [] e.key) ≤ 0 ↔ _
    by_cases h : i < e.id
    · rw [if_pos h]; exact ⟨fun _ => by omega, fun _ => by omega⟩
    · rw [if_neg h]
      by_cases h' : e.id < i
      · rw [if_pos h']; exact ⟨fun _ => by omega, fun _ => by omega⟩
      · rw [if_neg h']
        refine ⟨fun _ => by omega, fun _ => ?_⟩
        cases e.key <;> simp [lexCmp]
  suffices h : ∃ w, run env w0 ops = .ok w ∧ ShowsFrom env w (accepted ops) ⟨i, 0, [], []⟩ by
    obtain ⟨w, e1, M, m1, m2, m3⟩ := h
    exact ⟨w, e1, M, m1, fun e => by rw [m2 e, hle], m3⟩
  refine C85_from_partial env ops w0 ⟨i, 0, [], []⟩ ⟨hi, by omega, ?_, ?_, ?_,
    plain_fits hp.1 hp.2 hwf hsz (by omega)⟩ hn hc h1 h2 ⟨hii, by simp, ?_, ?_⟩
  · intro e he
    rw [if_pos hp.2] at he
    cases he
  · intro e he
    have := Nat.div_mul_le_self e.id env.iv
    have := hid e he
    omega
  · intro q
    exact C11.short_tame _ (Nat.le_trans (List.length_filter_le _ _) h512)
  · intro q _
    refine .inl (Nat.le_trans (len_le (T := (tried ops).filter fun e => e.id / env.iv == q) (C07.table_ascending _) ?_)
      (Nat.le_trans (List.length_filter_le _ _) h512))
    exact fun x hx => ⟨x, Cursor.mem_table hx, rfl⟩
  · exact .inl fun e _ he => (hle e).2 (Nat.le_of_eq he.symm)

/-- The hypotheses can be met: the history of C84, and the id 6. -/
example : ∃ w0, create env1 = .ok w0 ∧ Along env1 (Called env1) w0 ops2 ∧ Along env1 (Quiet env1.crcOn) w0 ops2 ∧
    Limits env1 (tried ops2) ∧ KeyOk env1 (tried ops2) ⟨6, 0, [], []⟩ := by
  obtain ⟨w0, h, _⟩ := create_rel env1 []
  have h2 := ok2
  unfold fromNew at h2
  rw [h] at h2
  refine ⟨w0, h, along_called _ _ _ h2 static2, quiet2 h, limits_env1 wf2 (by decide) (by decide) (by decide),
    by decide, by decide, fun q _ => .inl ?_, .inl (by decide)⟩
  refine Nat.le_trans (len_le (T := (tried ops2).filter fun e => e.id / env1.iv == q) (C07.table_ascending _)
    fun x hx => ⟨x, Cursor.mem_table hx, rfl⟩) (Nat.le_trans (List.length_filter_le _ _) (by decide))

def readsFrom (env : Env) (ops : List Op) (k : Event) (fuel : Nat) (es : List Event) : Bool :=
  fromNew env fun w => match run env w ops with
    | .ok w' => match scanFrom env w' fuel k with
      | .ok (some M) => M == es
      | _ => false
    | _ => false

set_option maxRecDepth 100000 in
example : readsFrom env1 ops2 ⟨7, 0, [], []⟩ 20 [a2] = true := by decide +kernel
set_option maxRecDepth 100000 in
example : readsFrom env1 ops2 ⟨6, 0, [], []⟩ 20 [a4, a2] = true := by decide +kernel

/-! A key between two events of an id. -/

def b1 : Event := ⟨3, 0, [5], [1, 2, 3, 4, 5, 6, 7, 8, 9, 10, 11, 12]⟩
def b2 : Event := ⟨8, 0, [], [7]⟩
def b3 : Event := ⟨3, 0, [6], [9]⟩

/-- The ids 3 and 8 in a file, and another event of the id 3. -/
def ops6 : List Op :=
  [.log [le1 b1, le1 b2], .commit, .rotate 0, .begin_ 5, .merge 5 (·.key) 1 2, .apply_ 5, .complete 5, .delete 5, .finish 5,
   .log [le1 b3], .commit]

set_option maxRecDepth 100000 in
example : reads env1 ops6 20 [b1, b3, b2] = true := by decide +kernel

set_option maxRecDepth 100000 in
theorem ends6 : ends env1 ops6 (some b3) [b3] = true := by decide +kernel

set_option maxRecDepth 100000 in
theorem ok6 : fromNew env1 (fun w => okAlong env1 w ops6) = true := by decide +kernel

theorem static6 : ∀ op ∈ ops6, Static env1 op := by
  intro op hop
  simp only [ops6, List.mem_cons, List.not_mem_nil, or_false] at hop
  rcases hop with rfl | rfl | rfl | rfl | rfl | rfl | rfl | rfl | rfl | rfl | rfl
  · exact static_log [b1, b2] (by simp) (by simp [b1, b2, WF]) (by decide)
  · trivial
  · trivial
  · exact (by decide : 5 < 2147483648)
  · exact ⟨by decide, fun e => Nat.le_refl _, by decide, by decide⟩
  · exact (by decide : 5 < 2147483648)
  · exact (by decide : 5 < 2147483648)
  · exact (by decide : 5 < 2147483648)
  · exact (by decide : 5 < 2147483648)
  · exact static_log [b3] (by simp) (by simp [b3, WF]) (by decide)
  · trivial

/-- The records in the current log file when there is a batch or a rotation. -/
def recs6 : List (List C22.Entry) := [[], [], [.write 1 [le1 b1, le1 b2]], [], [], [], [], [], [], [], []]

theorem good6 : ∀ o ∈ ops6.zip recs6, ∀ e ∈ o.2, e.Good env1.crcOn := by
  have h : ∀ e ∈ recs6.flatten, e.Good env1.crcOn := by
    simp only [recs6, List.flatten_cons, List.flatten_nil, List.nil_append, List.append_nil, List.mem_singleton]
    rintro e rfl
    exact ⟨by decide, static_log [b1, b2] (by simp) (by simp [b1, b2, WF]) (by decide)⟩
  intro o ho e he
  exact h e (List.mem_flatten.2 ⟨o.2, (List.of_mem_zip ho).2, he⟩)

set_option maxRecDepth 100000 in
theorem quietB6 : fromNew env1 (fun w => quietAlong env1 false w (ops6.zip recs6)) = true := by decide +kernel

/-- False of the code: after a history of C84, a cursor opened at an event that is
in the database returns it and then ends, though a later event is there too. -/
theorem C85_key_false : ∃ (env : Env) (ops : List Op) (w0 w : Db) (k : Event), Limits env (tried ops) ∧
    ops.length < 4294967296 ∧ create env = .ok w0 ∧ Along env (Called env) w0 ops ∧ Along env (Quiet env.crcOn) w0 ops ∧
    WF k ∧ run env w0 ops = .ok w ∧ Shows env w (accepted ops) ∧ lastOf (accepted ops) k = some k ∧
    k.isDelete = false ∧ ¬ ShowsFrom env w (accepted ops) k := by
  obtain ⟨w0, hw0, _⟩ := create_rel env1 []
  have h2 := ok6
  have h3 := ends6
  have hq := quietB6
  unfold ends fromNew at h3
  unfold fromNew at h2 hq
  rw [hw0] at h2 h3 hq
  have hl : Limits env1 (tried ops6) :=
    limits_env1 (by simp [tried, ops6, le1, b1, b2, b3, WF]) (by decide) (by decide) (by decide)
  have hc := along_called _ _ _ h2 static6
  have hq : Along env1 (Quiet env1.crcOn) w0 ops6 := along_quiet env1 (ops6.zip recs6) false w0 hq nofun good6
  obtain ⟨w, e1, hs⟩ := C84_whole_partial env1 ops6 w0 hl (by decide) hw0 hc hq
  refine ⟨env1, ops6, w0, w, b3, hl, by decide, hw0, hc, hq, by simp [b3, WF], e1, hs, by decide, by decide, ?_⟩
  rintro ⟨M, _, hM, n, hn⟩
  dsimp only at h3
  rw [e1] at h3
  dsimp only at h3
  split at h3
  · rename_i c hc
    have h4 := Cursor.scan_of_raw hc (rawB_raw env1 w _ c h3) (n + 2) (by simp)
    have h5 := hn (n + 2) (by omega)
    unfold scanFrom at h5
    rw [h4] at h5
    cases h5
    have := (hM b2).2 ⟨⟨by decide, by decide⟩, by decide⟩
    revert this
    decide
  · cases h3

/-- So the full property is false. -/
theorem C85_from_false : ¬ Full := by
  intro h
  obtain ⟨env, ops, w0, w, k, h1, h2, h3, h4, _, h6, h7, _, _, _, h8⟩ := C85_key_false
  obtain ⟨w', e, hs⟩ := h env ops w0 k h1 h2 h3 h4 h6
  rw [h7] at e
  cases e
  exact h8 hs

end Verif.C85
