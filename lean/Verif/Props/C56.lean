import Verif.Spec.C56

/-! C56: reads and writes of files are complete or fail. -/
namespace Verif.C56
open Vfs

theorem good_cons {a : Ans} {l : List Ans} (h : Good (a :: l)) : Good l := fun x hx => h x (List.mem_cons_of_mem _ hx)

theorem not_good {a : Ans} {l : List Ans} (h : ¬ Good l) : ¬ Good (a :: l) := fun h' => h (good_cons h')

theorem good_bytes {k : Nat} {l : List Ans} (h : Good (.bytes k :: l)) : 0 < k := by
  rcases Nat.eq_zero_or_pos k with rfl | hk
  · exact absurd rfl (h _ (List.mem_cons_self ..)).2
  · exact hk

/-- What the loop of vfs_write does from byte `n` on. -/
theorem writeLoop_spec (data : Bytes) : ∀ (l : List Ans) (n : Nat), n < data.length →
    (writeLoop data n l).1 <+: data.drop n ∧
    (∀ m, (writeLoop data n l).2 = .done m → (writeLoop data n l).1 = data.drop n ∧ m = data.length) ∧
    ((writeLoop data n l).2 = .failed → ¬ Good l) ∧
    ((writeLoop data n l).2 = .waiting → Good l → calls l < data.length - n)
  | [], n, h => ⟨List.nil_prefix, fun _ h => by simp [writeLoop] at h, fun h => by simp [writeLoop] at h,
      fun _ _ => by simp [calls]; omega⟩
  | .eintr :: l, n, h => by
    obtain ⟨h1, h2, h3, h4⟩ := writeLoop_spec data l n h
    rw [writeLoop]
    exact ⟨h1, h2, fun e => not_good (h3 e), fun e g => h4 e (good_cons g)⟩
  | .error :: l, n, h => by
    rw [writeLoop]
    exact ⟨List.nil_prefix, fun _ h => by simp at h, fun _ g => (g _ (List.mem_cons_self ..)).1 rfl, fun h => by simp at h⟩
  | .bytes k :: l, n, h => by
    simp only [writeLoop]
    have hm : 0 < maxRw := by decide
    by_cases hr : min k (min maxRw (data.length - n)) = 0
    · rw [if_pos hr]
      refine ⟨List.nil_prefix, fun _ h => by simp at h, fun _ g => ?_, fun h => by simp at h⟩
      have := good_bytes g
      omega
    rw [if_neg hr]
    generalize hrr : min k (min maxRw (data.length - n)) = r at hr
    have hle : n + r ≤ data.length := by omega
    have hx : data.drop n = (data.drop n).take r ++ data.drop (n + r) := by
      rw [← List.drop_drop, List.take_append_drop]
    by_cases he : n + r = data.length
    · rw [if_pos he]
      have hd : data.drop (n + r) = [] := List.drop_eq_nil_of_le (by omega)
      rw [hd, List.append_nil] at hx
      exact ⟨List.take_prefix .., fun m h => by simp at h; exact ⟨hx.symm, by omega⟩, fun h => by simp at h, fun h => by simp at h⟩
    · rw [if_neg he]
      obtain ⟨h1, h2, h3, h4⟩ := writeLoop_spec data l (n + r) (by omega)
      refine ⟨?_, fun m e => ?_, fun e => not_good (h3 e), fun e g => ?_⟩
      · conv => rhs; rw [hx]
        exact (List.prefix_append_right_inj _).2 h1
      · obtain ⟨e1, e2⟩ := h2 m e
        exact ⟨by rw [e1, ← hx], e2⟩
      · have := h4 e (good_cons g)
        simp only [calls]
        omega

/-- Partial: vfs_write is complete or fails, for data that is not empty.  Missing:
see C56_false_empty. -/
theorem C56_write_partial (data : Bytes) (l : List Ans) (h : data ≠ []) : Complete data l (write data l) := by
  have hp : 0 < data.length := List.length_pos_iff.2 h
  obtain ⟨h1, h2, h3, h4⟩ := writeLoop_spec data l 0 hp
  unfold Complete write
  refine ⟨by simpa using h1, ?_⟩
  split
  · rename_i n e
    simpa using h2 n e
  · rename_i e
    exact h3 e
  · rename_i e
    intro g
    have := h4 e g
    omega

/-- What the loop of vfs_pread does from byte `n` on. -/
theorem preadLoop_spec (file : Bytes) (off size : Nat) : ∀ (l : List Ans) (n : Nat), n < size →
    (preadLoop file off size n l).1 <+: (file.drop (off + n)).take (size - n) ∧
    (∀ m, (preadLoop file off size n l).2 = .done m →
      (preadLoop file off size n l).1 = (file.drop (off + n)).take (size - n) ∧ m = size ∧ off + size ≤ file.length) ∧
    ((preadLoop file off size n l).2 = .failed → ¬ Good l ∨ file.length < off + size) ∧
    ((preadLoop file off size n l).2 = .waiting → Good l → calls l < size - n)
  | [], n, h => ⟨List.nil_prefix, fun _ h => by simp [preadLoop] at h, fun h => by simp [preadLoop] at h,
      fun _ _ => by simp [calls]; omega⟩
  | .eintr :: l, n, h => by
    obtain ⟨h1, h2, h3, h4⟩ := preadLoop_spec file off size l n h
    rw [preadLoop]
    exact ⟨h1, h2, fun e => (h3 e).imp not_good id, fun e g => h4 e (good_cons g)⟩
  | .error :: l, n, h => by
    rw [preadLoop]
    exact ⟨List.nil_prefix, fun _ h => by simp at h, fun _ => .inl fun g => (g _ (List.mem_cons_self ..)).1 rfl, fun h => by simp at h⟩
  | .bytes k :: l, n, h => by
    simp only [preadLoop]
    have hm : 0 < maxRw := by decide
    by_cases hr : min k (min maxRw (min (size - n) (file.length - (off + n)))) = 0
    · rw [if_pos hr]
      refine ⟨List.nil_prefix, fun _ h => by simp at h, fun _ => ?_, fun h => by simp at h⟩
      by_cases hk : k = 0
      · exact .inl fun g => by have := good_bytes g; omega
      · exact .inr (by omega)
    rw [if_neg hr]
    generalize hrr : min k (min maxRw (min (size - n) (file.length - (off + n)))) = r at hr
    have hx : (file.drop (off + n)).take (size - n) =
        (file.drop (off + n)).take r ++ (file.drop (off + (n + r))).take (size - (n + r)) := by
      have : size - n = r + (size - (n + r)) := by omega
      rw [this, List.take_add, List.drop_drop]
      congr 3
      omega
    by_cases he : n + r = size
    · rw [if_pos he]
      have hd : size - n = r := by omega
      rw [hd]
      exact ⟨List.prefix_refl _, fun m h => by simp at h; exact ⟨rfl, by omega, by omega⟩, fun h => by simp at h, fun h => by simp at h⟩
    · rw [if_neg he]
      obtain ⟨h1, h2, h3, h4⟩ := preadLoop_spec file off size l (n + r) (by omega)
      refine ⟨?_, fun m e => ?_, fun e => (h3 e).imp not_good id, fun e g => ?_⟩
      · rw [hx]
        exact (List.prefix_append_right_inj _).2 h1
      · obtain ⟨e1, e2⟩ := h2 m e
        exact ⟨by rw [e1, ← hx], e2⟩
      · have := h4 e (good_cons g)
        simp only [calls]
        omega

/-- Partial: vfs_pread and vfs_read are complete or fail, for a size that is not
0.  Missing: see C56_false_empty. -/
theorem C56_read_partial (file : Bytes) (off size : Nat) (l : List Ans) (h : size ≠ 0) :
    CompleteRead file off size l (pread file off size l) := by
  obtain ⟨h1, h2, h3, h4⟩ := preadLoop_spec file off size l 0 (by omega)
  unfold CompleteRead pread
  refine ⟨by simpa using h1, ?_⟩
  split
  · rename_i n e
    obtain ⟨e1, e2, e3⟩ := h2 n e
    simp only [Nat.add_zero, Nat.sub_zero] at e1
    refine ⟨e1, e2, ?_⟩
    rw [e1]
    simp
    omega
  · rename_i e
    exact h3 e
  · rename_i e
    intro g
    have := h4 e g
    omega

theorem advance_flatten : ∀ (v : List Bytes) (r : Nat), r ≤ v.flatten.length → (advance v r).flatten = v.flatten.drop r
  | [], r, _ => by simp [advance]
  | x :: v, r, h => by
    rw [advance]
    split
    · rename_i hx
      simp only [List.flatten_cons]
      rw [List.drop_append_of_le_length (by omega)]
    · rename_i hx
      simp only [List.flatten_cons, List.length_append] at h ⊢
      rw [advance_flatten v _ (by omega), List.drop_append (l₁ := x), List.drop_eq_nil_of_le (as := x) (by omega), List.nil_append]

theorem advance_ne : ∀ (v : List Bytes) (r : Nat), advance v r ≠ [] → r < v.flatten.length
  | [], r, h => by simp [advance] at h
  | x :: v, r, h => by
    rw [advance] at h
    simp only [List.flatten_cons, List.length_append]
    split at h
    · omega
    · have := advance_ne v _ h
      omega

/-- What the loop of vfs_writev does. -/
theorem writevLoop_spec : ∀ (l : List Ans) (v : List Bytes) (s : Nat),
    (writevLoop v s l).1 <+: v.flatten ∧
    (∀ m, (writevLoop v s l).2 = .done m → (writevLoop v s l).1 = v.flatten ∧ m = s + v.flatten.length) ∧
    ((writevLoop v s l).2 = .failed → ¬ Good l) ∧
    ((writevLoop v s l).2 = .waiting → Good l → calls l < max 1 v.flatten.length)
  | [], v, s => ⟨List.nil_prefix, fun _ h => by simp [writevLoop] at h, fun h => by simp [writevLoop] at h,
      fun _ _ => by simp [calls]; omega⟩
  | .eintr :: l, v, s => by
    obtain ⟨h1, h2, h3, h4⟩ := writevLoop_spec l v s
    rw [writevLoop]
    exact ⟨h1, h2, fun e => not_good (h3 e), fun e g => h4 e (good_cons g)⟩
  | .error :: l, v, s => by
    rw [writevLoop]
    exact ⟨List.nil_prefix, fun _ h => by simp at h, fun _ g => (g _ (List.mem_cons_self ..)).1 rfl, fun h => by simp at h⟩
  | .bytes k :: l, v, s => by
    simp only [writevLoop]
    have hm : 0 < maxRw := by decide
    generalize hrr : min k (min maxRw v.flatten.length) = r
    have hle : r ≤ v.flatten.length := by omega
    have hf := advance_flatten v r hle
    have hx : v.flatten = v.flatten.take r ++ (advance v r).flatten := by rw [hf, List.take_append_drop]
    by_cases he : advance v r = []
    · rw [if_pos he]
      rw [he] at hx hf
      simp only [List.flatten_nil, List.append_nil] at hx hf
      have : v.flatten.length ≤ r := List.drop_eq_nil_iff.1 hf.symm
      exact ⟨List.take_prefix .., fun m h => by simp only [Ret.done.injEq] at h; exact ⟨hx.symm, by omega⟩,
        fun h => by simp at h, fun h => by simp at h⟩
    · rw [if_neg he]
      obtain ⟨h1, h2, h3, h4⟩ := writevLoop_spec l (advance v r) (s + r)
      have hlt := advance_ne v r he
      have hfl : (advance v r).flatten.length = v.flatten.length - r := by rw [hf, List.length_drop]
      refine ⟨?_, fun m e => ?_, fun e => not_good (h3 e), fun e g => ?_⟩
      · conv => rhs; rw [hx]
        exact (List.prefix_append_right_inj _).2 h1
      · obtain ⟨e1, e2⟩ := h2 m e
        refine ⟨by rw [e1, ← hx], by omega⟩
      · have := h4 e (good_cons g)
        have := good_bytes g
        simp only [calls]
        omega

/-- vfs_writev is complete or fails, for any vector, with empty parts too. -/
theorem C56_writev (v : List Bytes) (l : List Ans) : Complete v.flatten l (writev v l) := by
  obtain ⟨h1, h2, h3, h4⟩ := writevLoop_spec l v 0
  unfold Complete writev
  refine ⟨h1, ?_⟩
  split
  · rename_i n e
    simpa using h2 n e
  · rename_i e
    exact h3 e
  · rename_i e
    exact h4 e

/-- Partial: a write that does not throw is recorded.  Missing: see
C56_false_torn. -/
theorem C56_file_write_partial (f : File) (data : Bytes) (l : List Ans) (h : f.size = f.bytes.length) (hd : data ≠ [])
    (hn : (file_write f data l).2 ≠ .yes) : Recorded f data (file_write f data l) := by
  have hc := C56_write_partial data l hd
  revert hc hn
  unfold file_write
  rcases write data l with ⟨x, r⟩
  cases r with
  | failed => intro h; exact absurd rfl h
  | waiting => intro _ _; exact ⟨fun h => by simp at h, fun h => by simp at h⟩
  | done n =>
    intro _ hc
    obtain ⟨_, e1, e2⟩ := hc
    simp only at e1
    subst e1
    exact ⟨fun _ => rfl, fun _ => by simp [h, e2]⟩

/-- Partial: the same for file_writev, over any number of calls. -/
theorem C56_file_writev_partial : ∀ (ls : List (List Ans)) (f : File) (v : List Bytes), f.size = f.bytes.length →
    (file_writev f v ls).2 ≠ .yes → Recorded f v.flatten (file_writev f v ls)
  | [], f, v, h, _ => by
    rw [file_writev]
    split
    · rename_i hv
      subst hv
      exact ⟨fun _ => by simp, fun _ => h⟩
    · exact ⟨fun h => by simp at h, fun h => by simp at h⟩
  | l :: ls, f, v, h, hn => by
    rw [file_writev] at hn ⊢
    by_cases hv : v = []
    · subst hv
      exact ⟨fun _ => by simp, fun _ => h⟩
    rw [if_neg hv] at hn ⊢
    have hc := C56_writev (v.take iovMax) l
    rcases hw : writev (v.take iovMax) l with ⟨x, r⟩
    rw [hw] at hc hn
    cases r with
    | failed => exact absurd rfl hn
    | waiting => exact ⟨fun h => by simp at h, fun h => by simp at h⟩
    | done n =>
      obtain ⟨_, e1, e2⟩ := hc
      simp only at e1 hn ⊢
      subst e1
      have hi := C56_file_writev_partial ls ⟨f.bytes ++ (v.take iovMax).flatten, f.size + n⟩ (v.drop iovMax)
        (by simp [h, e2]) hn
      refine ⟨fun e => ?_, hi.2⟩
      rw [hi.1 e, List.append_assoc, ← List.flatten_append, List.take_append_drop]

/-- False of the code: writing or reading nothing fails, though no call does. -/
theorem C56_false_empty : (write [] [.bytes 5]).2 = .failed ∧ (pread [1, 2, 3] 1 0 [.bytes 5]).2 = .failed ∧ Good [.bytes 5] := by
  refine ⟨rfl, rfl, ?_⟩
  intro a h
  simp at h
  subst h
  simp

/-- False of the code: after a write that failed half way the recorded size is
not that of the file.  The next write goes behind the torn bytes, and its
recorded place is wrong. -/
theorem C56_false_torn :
    let f := (file_writev ⟨[], 0⟩ [[1, 2, 3], [4, 5, 6]] [[.bytes 4, .error]])
    f = (⟨[1, 2, 3, 4], 0⟩, .yes) ∧ file_writev f.1 [[7]] [[.bytes 1]] = (⟨[1, 2, 3, 4, 7], 1⟩, .no) := by
  decide

theorem C56_false : ¬ Full := by
  intro h
  have := (h.1 [] [.bytes 5]).2
  exact this C56_false_empty.2.2

/-- A write of six bytes in three parts, one of them empty, that is interrupted and
cut twice. -/
example : writev [[1, 2, 3], [], [4, 5, 6]] [.bytes 2, .eintr, .bytes 3, .bytes 9] = ([1, 2, 3, 4, 5, 6], .done 6) := by
  decide

example : (file_write ⟨[9], 1⟩ [1, 2, 3] [.bytes 1, .eintr, .bytes 2]).2 ≠ .yes ∧ ([1, 2, 3] : Bytes) ≠ [] := by decide

example : (file_writev ⟨[9], 1⟩ [[1], [2, 3]] [[.bytes 1, .bytes 2]]).2 ≠ .yes := by decide

end Verif.C56
