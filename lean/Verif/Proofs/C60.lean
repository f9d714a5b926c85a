import Verif.Proofs.WalRun
import Verif.Spec.C60

namespace Verif.C60
open Wal C22
open Io hiding Holds
open C23 (Kind Running Batches)

theorem fail_eq {s : State} {r : Nat → Res Bytes} {b : Bytes} {c : Current} (h : r (s.lsn + 1) = .ok b)
    (hc : s.current = some c) (n : Nat) : s.fail r n = .ok
      { s with
        dir := { s.dir with files := s.dir.files.map fun f => if f.1 = c.id then (f.1, put f.2 c.pos (b.take n)) else f }
        current := some { c with
          pos := c.pos + (b.take n).length
          size := if b.length ≤ n then c.size + b.length else c.size } } := by
  unfold State.fail
  rw [h, Res.bind_ok, hc]

theorem put_nil (f : Bytes) (p : Nat) : put f p [] = f := by simp [put]

/-- A write that fails before its first byte changes nothing. -/
theorem fail_zero {s : State} {r : Nat → Res Bytes} {b : Bytes} {c : Current} (h : r (s.lsn + 1) = .ok b)
    (hc : s.current = some c) (hb : 0 < b.length) : s.fail r 0 = .ok s := by
  rw [fail_eq h hc]
  have e : (s.dir.files.map fun f => if f.1 = c.id then (f.1, put f.2 c.pos (b.take 0)) else f) = s.dir.files := by
    rw [List.take_zero]
    simp only [put_nil]
    have : (fun f : Nat × Bytes => if f.1 = c.id then (f.1, f.2) else f) = id := by funext f; split <;> rfl
    rw [this, List.map_id]
  rw [e, if_neg (by omega), List.take_zero]
  obtain ⟨d, cur, l⟩ := s
  dsimp only at hc
  subst hc
  rfl

theorem run_spec {crcOn : Bool} {base fuel : Nat} : ∀ (ops : List Op) (fs : List LogFile) (s : State),
    Running crcOn fs s → InRange fs s ops fuel → base ≤ s.lsn → (∀ op ∈ ops, opGood crcOn op) →
    (∀ op ∈ ops, opBatch op) → (∀ op ∈ ops, opEmpty op) → Batches (entriesOf fs) →
    StaysSmall crcOn base fuel s ops →
    ∃ fs' s', run crcOn base fuel s ops = .ok s' ∧ Running crcOn fs' s' ∧
      entriesOf fs' = entriesOf fs ++ logged s.lsn ops ∧ Batches (entriesOf fs') ∧ base ≤ s'.lsn := by
  intro ops
  induction ops with
  | nil =>
    intro fs s h hr hb hg hop hem hba hsm
    exact ⟨fs, s, rfl, h, by simp [logged], hba, hb⟩
  | cons op ops ih =>
    intro fs s h hr hb hg hop hem hba hsm
    obtain ⟨hr1, hr2⟩ := hr
    simp only [List.length_cons] at hr1 hr2
    cases op with
    | log k =>
      have hk : k.Good crcOn := hg (.log k) (by simp)
      obtain ⟨fs1, s1, h1, h2, h3, h4⟩ := C23.step_log h hk (by omega)
      have hba1 : Batches (entriesOf fs1) := by
        rw [h3]
        intro e he
        rcases List.mem_append.1 he with he | he
        · exact hba e he
        · simp only [List.mem_cons, List.not_mem_nil, or_false] at he
          have := hop (.log k) (by simp)
          cases k with
          | batch es => exact ⟨_, _, he⟩
          | drop id => simp [opBatch, Kind.isBatch] at this
      obtain ⟨fs', s', e1, e2, e3, e4, e5⟩ := ih fs1 s1 h2
        ⟨by omega, by rw [h3]; simp; omega⟩ (by omega) (fun op ho => hg op (by simp [ho])) (fun op ho => hop op (by simp [ho]))
        (fun op ho => hem op (by simp [ho])) hba1
        (fun o1 o2 t ho ht => hsm (.log k :: o1) o2 t (by simp [ho]) (by simp only [run, h1, Res.bind_ok]; exact ht))
      refine ⟨fs', s', by simp only [run, h1, Res.bind_ok]; exact e1, e2, ?_, e4, e5⟩
      rw [e3, h3, h4]
      simp [logged]
    | fail k n =>
      have hk : k.Good crcOn := hg (.fail k n) (by simp)
      have hn : n = 0 := hem (.fail k n) (by simp)
      subst hn
      obtain ⟨b, hb', hrec⟩ := entry_rec (C23.kind_good (l := s.lsn + 1) hk (by omega))
      have hpos := rec_ge hrec
      obtain ⟨f, bs, -, -, -, hcur, -⟩ := h.2.2.2
      have h1 : s.fail (fun l => (k.entry l).bytes crcOn) 0 = .ok s := fail_zero hb' hcur (by omega)
      obtain ⟨fs', s', e1, e2, e3, e4, e5⟩ := ih fs s h
        ⟨by omega, by omega⟩ (by omega) (fun op ho => hg op (by simp [ho])) (fun op ho => hop op (by simp [ho]))
        (fun op ho => hem op (by simp [ho])) hba
        (fun o1 o2 t ho ht => hsm (.fail k 0 :: o1) o2 t (by simp [ho]) (by simp only [run, h1, Res.bind_ok]; exact ht))
      exact ⟨fs', s', by simp only [run, h1, Res.bind_ok]; exact e1, e2, by rw [e3]; simp [logged], e4, e5⟩
    | rotate wm =>
      obtain ⟨fs1, h2, h3, h4⟩ := C23.step_rotate h wm (by omega)
      obtain ⟨fs', s', e1, e2, e3, e4, e5⟩ := ih fs1 (s.rotate wm) h2
        ⟨by omega, by rw [h3]; omega⟩ (by omega) (fun op ho => hg op (by simp [ho])) (fun op ho => hop op (by simp [ho]))
        (fun op ho => hem op (by simp [ho])) (by rw [h3]; exact hba)
        (fun o1 o2 t ho ht => hsm (.rotate wm :: o1) o2 t (by simp [ho]) (by simp only [run]; exact ht))
      exact ⟨fs', s', by simp only [run]; exact e1, e2, by rw [e3, h3, h4]; simp [logged], e4, e5⟩
    | reopen =>
      have hs0 : Small s.dir := hsm [] (.reopen :: ops) s (by simp) rfl
      obtain ⟨s1, h1, h2, h4⟩ := C23.step_reopen (fuel := fuel) h hs0 hb (by omega) hba
      obtain ⟨fs', s', e1, e2, e3, e4, e5⟩ := ih fs s1 h2
        ⟨by omega, by omega⟩ (by omega) (fun op ho => hg op (by simp [ho])) (fun op ho => hop op (by simp [ho]))
        (fun op ho => hem op (by simp [ho])) hba
        (fun o1 o2 t ho ht => hsm (.reopen :: o1) o2 t (by simp [ho]) (by simp only [run, h1, Res.bind_ok]; exact ht))
      exact ⟨fs', s', by simp only [run, h1, Res.bind_ok]; exact e1, e2, by rw [e3, h4]; simp [logged], e4, e5⟩

theorem logged_length (ops : List Op) : ∀ l, (logged l ops).length ≤ ops.length := by
  induction ops with
  | nil => intro l; simp [logged]
  | cons op ops ih =>
    intro l
    cases op with
    | log k => have := ih (l + 1); simp [logged]; omega
    | fail k n => have := ih l; simp [logged]; omega
    | rotate wm => have := ih l; simp [logged]; omega
    | reopen => have := ih l; simp [logged]; omega

/-- The files after a failed write are those of a process that died in it. -/
theorem fail_tear {s : State} {r : Nat → Res Bytes} {b : Bytes} {c : Current} (h : r (s.lsn + 1) = .ok b)
    (hc : s.current = some c) (n : Nat) : ∃ s', s.fail r n = .ok s' ∧ s.tear r n = .ok s'.dir := by
  refine ⟨_, fail_eq h hc n, ?_⟩
  unfold State.tear
  rw [h, Res.bind_ok, hc]

/-- The files after a failed sync are those of a write that succeeded. -/
theorem fail_write {s : State} {r : Nat → Res Bytes} {b : Bytes} {c : Current} (h : r (s.lsn + 1) = .ok b)
    (hc : s.current = some c) {n : Nat} (hn : b.length ≤ n) :
    ∃ s' s2, s.fail r n = .ok s' ∧ s.write r = .ok s2 ∧ s'.dir = s2.dir := by
  refine ⟨_, _, fail_eq h hc n, C23.write_eq h hc, ?_⟩
  rw [List.take_of_length_le hn]
  rfl

end Verif.C60
