import Verif.Proofs.C09
import Verif.Props.C07

/-! C09: batch writes are atomic in memory. -/
namespace Verif.C09
open Spec Batch C07

/-- Partial: every batch of a history, failing or not, has all or no effect, if
- it does not fail before its first log record (`Starts`);
- no allocation of an event fails, and no page allocation in an empty partition
  (`NoNull`);
- each event is the largest of its partition or replaces the largest, or the
  partition never exceeds one page (`Tail`).
Missing: the other cases, in each of which it fails (see below), and writes near
the end of tables of several pages in batches that succeed (C07). -/
theorem C09_atomic_partial (mc : MemCmp) (sp ss : Nat) (h1 : 0 < ss) (h2 : ss < sp) (route base : Nat → Nat)
    (bs : List Batch)
    (hw : ∀ b ∈ bs, ∀ a ∈ b.args, base (route a.event.id) ≤ a.event.id ∧
      a.event.id < base (route a.event.id) + 2147483648)
    (ha : Allowed sp route (fun _ => []) (fun _ => 0) bs) :
    AllAtomic mc route (fun _ => Memtable.init sp ss) (fun _ => []) bs :=
  allAtomic bs _ _ _ (good_init h1 h2 base) hw ha

/-- A later event of a batch wins over an earlier one with the same key. -/
theorem C09_last_wins (route : Nat → Nat) (c : Contents) (es : List Event) (e : Event) :
    lookup e (written route c (es ++ [e]) (route e.id)) = some e := by
  induction es generalizing c with
  | nil =>
    simp only [List.nil_append, written, if_true]
    exact lookup_put_self e _
  | cons x es ih => exact ih _

/-- A batch does not touch other partitions. -/
theorem C09_others (route : Nat → Nat) (p : Nat) : ∀ (es : List Event) (c : Contents), (∀ e ∈ es, route e.id ≠ p) →
    written route c es p = c p := by
  intro es
  induction es with
  | nil => intros; rfl
  | cons e es ih =>
    intro c h
    simp only [written]
    rw [ih _ (fun x hx => h x (by simp [hx]))]
    rw [if_neg (fun hp => h e (by simp) hp.symm)]

/-- A write of one event with a key of 256 bytes, in any state: the rollback of
the empty log reads before the start of a buffer that was never allocated. -/
theorem C09_false_first_key (mc : MemCmp) (route : Nat → Nat) (t : Tables) (v : List UInt8) (id : Nat) (fl : Nat)
    (f : Fail) (lf : Bool) (lsn : Nat) (as : List Arg) :
    ∃ w, write mc route t ⟨⟨⟨id, fl, List.replicate 256 97, v⟩, f⟩ :: as, lf, lsn⟩ = .ub w := by
  refine ⟨"engine_rollback: log_last of an empty log", ?_⟩
  have hl : (List.replicate 256 (97 : UInt8)).length > 255 := by rw [List.length_replicate]; omega
  simp only [write, apply, hl, if_true, Res.bind_ok, Bool.true_or, rollback]
  rfl

/-- The allocation of the first event fails (memory limit): the rollback removes
the event NULL. -/
theorem C09_false_event (mc : MemCmp) (route : Nat → Nat) (t : Tables) (e : Event) (lf : Bool) (lsn : Nat)
    (as : List Arg) (hk : e.key.length ≤ 255) :
    ∃ w, write mc route t ⟨⟨e, .event⟩ :: as, lf, lsn⟩ = .ub w := by
  refine ⟨"memtable_unset: NULL event", ?_⟩
  have : ¬ e.key.length > 255 := by omega
  simp [write, apply, rollback, undoAll, undo, Res.bind, this]

/-- The allocation of the first page of a partition fails: the rollback removes
the event from a table without pages (assertion; NULL page without assertions). -/
theorem C09_false_first_page (mc : MemCmp) (route : Nat → Nat) (t : Tables) (e : Event) (lf : Bool) (lsn : Nat)
    (as : List Arg) (hk : e.key.length ≤ 255) (h0 : (t (route e.id)).countPages = 0) :
    ∃ w, write mc route t ⟨⟨e, .page⟩ :: as, lf, lsn⟩ = .abort w := by
  refine ⟨"memtable_unset: count_pages > 0", ?_⟩
  have : ¬ e.key.length > 255 := by omega
  have hb : (Fail.page != Fail.page) = false := rfl
  simp [write, apply, rollback, undoAll, undo, Res.bind, this, Memtable.set, Memtable.unset, h0]

/-- The batch 1, 1022 on a table of the even ids 0..1020. -/
def splitBatch : Batch := ⟨[⟨ev 1, .none⟩, ⟨ev 1022, .none⟩], true, 1⟩

/-- The table after the failed batch. -/
def splitTable : Memtable :=
  { Memtable.init 512 508 with
    tree := .node .black .nil ⟨0, ev 0 :: ev 1 :: (List.range 506).map (fun i => ev (2 * i + 2))⟩
      (.node .red .nil ⟨1, [ev 1014, ev 1016, ev 1018, ev 1020]⟩ .nil),
    countPages := 2, count := 512, nextPid := 2 }

/-- With the page sizes of the code and a table of 511 events: a batch of an event
near the start and one at the end, which splits the page.  If the log write fails,
the first one stays in the table. -/
theorem C09_false_split :
    (∃ ps, C07.run memCmpStd (Memtable.init 512 508) (evens 511) = .ok (page1 511, ps)) ∧
    (∃ t', write memCmpStd (fun _ => 0) (fun _ => page1 511) splitBatch = .ok (t', true) ∧ t' 0 = splitTable) ∧
    Memtable.scan memCmpStd splitTable none ≠ .ok (evens 511) := by
  refine ⟨run_evens memCmpStd 511 (by omega) (by omega), ?_, by decide +kernel⟩
  have hc : ((write memCmpStd (fun _ => 0) (fun _ => page1 511) splitBatch).bind fun r => .ok (r.1 0, r.2)) =
      .ok (splitTable, true) := by decide +kernel
  cases hw : write memCmpStd (fun _ => 0) (fun _ => page1 511) splitBatch with
  | ok r =>
    rw [hw, Res.bind_ok] at hc
    simp only [Res.ok.injEq, Prod.mk.injEq] at hc
    exact ⟨r.1, by rw [← hc.2], hc.1⟩
  | err w => rw [hw] at hc; cases hc
  | abort w => rw [hw] at hc; cases hc
  | ub w => rw [hw] at hc; cases hc

/-- The property is false of the code. -/
theorem C09_false : ¬ Full 512 508 := by
  intro h
  obtain ⟨w, hw⟩ := C09_false_first_key memCmpStd (fun _ => 0) (fun _ => Memtable.init 512 508) [] 1 0 .none false 1 []
  obtain ⟨⟨t', failed, hw', _⟩, _⟩ := h memCmpStd (fun _ => 0) (fun _ => 0)
    [⟨[⟨⟨1, 0, List.replicate 256 97, []⟩, .none⟩], false, 1⟩] (by
      intro b hb a ha
      simp only [List.mem_singleton] at hb
      subst hb
      simp only [List.mem_singleton] at ha
      subst ha
      simp)
  rw [hw] at hw'
  cases hw'

instance decTail (sp : Nat) (route small : Nat → Nat) : ∀ (es : List Event) (c : Contents), Decidable (Tail sp route small c es)
  | [], _ => isTrue trivial
  | _ :: es, _ => @instDecidableAnd _ _ _ (decTail sp route small es _)

instance decNoNull (route : Nat → Nat) : ∀ (as : List Arg) (c : Contents), Decidable (NoNull route c as)
  | [], _ => isTrue trivial
  | _ :: as, _ => @instDecidableAnd _ _ _ (@instDecidableAnd _ _ _ (decNoNull route as _))

instance (b : Batch) : Decidable (Starts b) := by
  unfold Starts
  cases b.args <;> infer_instance

instance decAllowed (sp : Nat) (route : Nat → Nat) : ∀ (bs : List Batch) (c : Contents) (pk : Nat → Nat),
    Decidable (Allowed sp route c pk bs)
  | [], _, _ => isTrue trivial
  | _ :: bs, _, _ =>
    @instDecidableAnd _ _ _ (@instDecidableAnd _ _ _ (@instDecidableAnd _ _ _
      (@Bool.instDecidableForallOfDecidablePred _ (fun _ => decAllowed sp route bs _ _))))

/-- The hypotheses are met by a history over two partitions on pages of 4 events
split at 3: a batch with a repeated key, a batch that splits a page and whose log
write fails, a batch whose third event has a long key, one without memory for a
page. -/
example : AllAtomic memCmpStd (fun id => id / 100) (fun _ => Memtable.init 4 3) (fun _ => [])
    [⟨[⟨ev 1, .none⟩, ⟨ev 150, .none⟩, ⟨ev 1, .none⟩, ⟨ev 120, .none⟩, ⟨ev 2, .none⟩, ⟨ev 3, .none⟩], false, 1⟩,
     ⟨[⟨ev 3, .none⟩, ⟨ev 4, .none⟩, ⟨ev 110, .none⟩, ⟨ev 5, .none⟩, ⟨ev 6, .none⟩], true, 2⟩,
     ⟨[⟨ev 120, .none⟩, ⟨ev 7, .none⟩, ⟨⟨8, 0, List.replicate 256 97, []⟩, .none⟩], false, 3⟩,
     ⟨[⟨ev 10, .none⟩, ⟨ev 11, .page⟩], false, 4⟩] := by
  refine C09_atomic_partial memCmpStd 4 3 (by omega) (by omega) (fun id => id / 100) (fun p => p * 100) _ ?_ ?_
  · intro b hb a ha
    simp only [List.mem_cons, List.not_mem_nil, or_false] at hb
    rcases hb with rfl | rfl | rfl | rfl <;>
      (simp only [List.mem_cons, List.not_mem_nil, or_false] at ha
       rcases ha with rfl | rfl | rfl | rfl | rfl | rfl) <;> simp [ev]
  · decide +kernel

end Verif.C09
