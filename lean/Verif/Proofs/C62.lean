import Verif.Props.C56
import Verif.Spec.C62

namespace Verif.C62
open Vfs Transfer

/-! Uploads. -/

theorem upload_cb_some {file x : Bytes} {offset limit o : Nat} {l : List Ans}
    (h : upload_cb file file.length offset limit l = some (x, o)) (hx : x ≠ []) (ho : offset ≤ file.length) :
    x = (file.drop offset).take (o - offset) ∧ offset < o ∧ o ≤ file.length := by
  unfold upload_cb at h
  dsimp only at h
  generalize hn : (if file.length - offset < limit then file.length - offset else limit) = n at h
  have hn' : n ≤ file.length - offset := by split at hn <;> omega
  cases hp : pread file offset n l with
  | mk y r =>
    rw [hp] at h
    cases r with
    | failed => simp only [Option.some.injEq, Prod.mk.injEq] at h; exact absurd h.1.symm hx
    | waiting => cases h
    | done m =>
      simp only [Option.some.injEq, Prod.mk.injEq] at h
      obtain ⟨rfl, rfl⟩ := h
      have h0 : n ≠ 0 := by
        intro h0
        rw [h0] at hp
        unfold pread at hp
        have : ∀ l : List Ans, (preadLoop file offset 0 0 l).2 ≠ .done m := by
          intro l
          induction l with
          | nil => simp [preadLoop]
          | cons a l ih =>
            cases a with
            | eintr => rw [preadLoop]; exact ih
            | error => simp [preadLoop]
            | bytes k => simp [preadLoop]
        exact this l (by rw [hp])
      have hc := C56.C56_read_partial file offset n l h0
      rw [hp] at hc
      obtain ⟨-, h1, -, -⟩ := hc
      dsimp only at h1
      refine ⟨?_, by omega, by omega⟩
      rw [h1]
      congr 1
      omega

theorem uploadLoop_ok {file : Bytes} : ∀ (pieces : List (Nat × List Ans)) (offset : Nat), offset < file.length →
    (uploadLoop file file.length offset pieces).2 = .ok →
    (uploadLoop file file.length offset pieces).1 = file.drop offset := by
  intro pieces
  induction pieces with
  | nil => intro offset _ h; cases h
  | cons p pieces ih =>
    obtain ⟨limit, l⟩ := p
    intro offset ho h
    simp only [uploadLoop] at h ⊢
    cases hc : upload_cb file file.length offset limit l with
    | none => rw [hc] at h; cases h
    | some r =>
      obtain ⟨x, o⟩ := r
      rw [hc] at h
      dsimp only at h ⊢
      by_cases hx : x = []
      · rw [if_pos hx] at h; cases h
      · rw [if_neg hx] at h ⊢
        obtain ⟨h1, h2, h3⟩ := upload_cb_some hc hx (by omega)
        have hsplit : file.drop offset = x ++ file.drop o := by
          rw [h1]
          have : file.drop o = (file.drop offset).drop (o - offset) := by
            rw [List.drop_drop]; congr 1; omega
          rw [this, List.take_append_drop]
        by_cases he : o = file.length
        · rw [if_pos he]
          rw [hsplit, he, List.drop_length, List.append_nil]
        · rw [if_neg he] at h ⊢
          dsimp only at h ⊢
          rw [ih o (by omega) h, hsplit]

theorem upload_cb_fine {file : Bytes} {offset limit : Nat} {l : List Ans} (ho : offset < file.length)
    (hf : UploadFine (limit, l)) : ∃ x o, upload_cb file file.length offset limit l = some (x, o) ∧ x ≠ [] ∧
      offset < o ∧ o ≤ file.length := by
  obtain ⟨h1, h2, h3⟩ := hf
  dsimp only at h1 h2 h3
  unfold upload_cb
  dsimp only
  generalize hn : (if file.length - offset < limit then file.length - offset else limit) = n
  have hn' : 0 < n ∧ n ≤ file.length - offset ∧ n ≤ limit := by split at hn <;> omega
  have hc := C56.C56_read_partial file offset n l (by omega)
  cases hp : pread file offset n l with
  | mk y r =>
    rw [hp] at hc
    obtain ⟨-, hc⟩ := hc
    cases r with
    | failed => rcases hc with hc | hc
                · exact absurd h2 hc
                · omega
    | waiting =>
      have := hc h2
      omega
    | done m =>
      obtain ⟨-, -, hl⟩ := hc
      dsimp only at hl
      refine ⟨y, offset + n, rfl, ?_, by omega, by omega⟩
      intro hy
      rw [hy] at hl
      simp at hl
      omega

theorem uploadLoop_fine {file : Bytes} : ∀ (pieces : List (Nat × List Ans)) (offset : Nat), offset < file.length →
    (∀ p ∈ pieces, UploadFine p) → file.length - offset ≤ pieces.length →
    (uploadLoop file file.length offset pieces).2 = .ok := by
  intro pieces
  induction pieces with
  | nil => intro offset ho _ hl; simp at hl; omega
  | cons p pieces ih =>
    obtain ⟨limit, l⟩ := p
    intro offset ho hf hl
    obtain ⟨x, o, h1, h2, h3, h4⟩ := upload_cb_fine ho (hf (limit, l) (by simp))
    simp only [uploadLoop, h1]
    rw [if_neg h2]
    by_cases he : o = file.length
    · rw [if_pos he]
    · rw [if_neg he]
      simp only [List.length_cons] at hl
      exact ih o (by omega) (fun p hp => hf p (by simp [hp])) (by omega)

/-! Downloads. -/

theorem write_nil (l : List Ans) : ∀ n, (write [] l).2 ≠ .done n := by
  unfold write
  induction l with
  | nil => intro n; simp [writeLoop]
  | cons a l ih =>
    intro n
    cases a with
    | eintr => rw [writeLoop]; exact ih n
    | error => simp [writeLoop]
    | bytes k => simp [writeLoop]

theorem write_nil_out (l : List Ans) : (write [] l).1 = [] := by
  unfold write
  induction l with
  | nil => simp [writeLoop]
  | cons a l ih =>
    cases a with
    | eintr => rw [writeLoop]; exact ih
    | error => simp [writeLoop]
    | bytes k => simp [writeLoop]

theorem download_cb_all {f f' : File} {data : Bytes} {l : List Ans} (h : download_cb f data l = (f', some data.length)) :
    f'.bytes = f.bytes ++ data ∧ f'.size = f.size + data.length := by
  unfold download_cb at h
  cases hw : write data l with
  | mk x r =>
    rw [hw] at h
    by_cases hd : data = []
    · subst hd
      have h1 := write_nil l
      have h2 := write_nil_out l
      rw [hw] at h1 h2
      dsimp only at h1 h2
      subst h2
      cases r with
      | done n => exact absurd rfl (h1 n)
      | failed =>
        simp only [Prod.mk.injEq] at h
        obtain ⟨rfl, -⟩ := h
        simp
      | waiting => simp at h
    · have hc := C56.C56_write_partial data l hd
      rw [hw] at hc
      obtain ⟨-, hc⟩ := hc
      have hpos : 0 < data.length := List.length_pos_iff.2 hd
      cases r with
      | done n =>
        obtain ⟨h1, h2⟩ := hc
        dsimp only at h1 h2
        simp only [Prod.mk.injEq] at h
        obtain ⟨rfl, -⟩ := h
        exact ⟨by rw [h1], by rw [h2]⟩
      | failed => simp at h; omega
      | waiting => simp at h

theorem downloadLoop_ok : ∀ (pieces : List (Bytes × List Ans)) (f : File) (whole : Bool),
    (downloadLoop f whole pieces).2 = .ok →
    (downloadLoop f whole pieces).1.bytes = f.bytes ++ (pieces.map (·.1)).flatten ∧
    (downloadLoop f whole pieces).1.size = f.size + (pieces.map (·.1)).flatten.length ∧ whole = true := by
  intro pieces
  induction pieces with
  | nil =>
    intro f whole h
    cases whole
    · cases h
    · simp [downloadLoop]
  | cons p pieces ih =>
    obtain ⟨data, l⟩ := p
    intro f whole h
    simp only [downloadLoop] at h ⊢
    cases hc : download_cb f data l with
    | mk f' r =>
      rw [hc] at h
      cases r with
      | none => cases h
      | some n =>
        dsimp only at h ⊢
        by_cases hn : n = data.length
        · rw [if_pos hn] at h ⊢
          subst hn
          obtain ⟨a1, a2⟩ := download_cb_all hc
          obtain ⟨b1, b2, b3⟩ := ih f' whole h
          refine ⟨by rw [b1, a1]; simp, by rw [b2, a2]; simp; omega, b3⟩
        · rw [if_neg hn] at h; cases h

theorem downloadLoop_fine : ∀ (pieces : List (Bytes × List Ans)) (f : File), (∀ p ∈ pieces, DownloadFine p) →
    (downloadLoop f true pieces).2 = .ok := by
  intro pieces
  induction pieces with
  | nil => intro f _; rfl
  | cons p pieces ih =>
    obtain ⟨data, l⟩ := p
    intro f hf
    obtain ⟨h1, h2, h3⟩ := hf (data, l) (by simp)
    dsimp only at h1 h2 h3
    have hpos : 0 < data.length := List.length_pos_iff.2 h1
    have hc := C56.C56_write_partial data l h1
    simp only [downloadLoop, download_cb]
    cases hw : write data l with
    | mk x r =>
      rw [hw] at hc
      obtain ⟨-, hc⟩ := hc
      cases r with
      | done n =>
        obtain ⟨-, h2⟩ := hc
        dsimp only at h2 ⊢
        rw [if_pos h2]
        exact ih _ (fun p hp => hf p (by simp [hp]))
      | failed => exact absurd h2 hc
      | waiting => have := hc h2; omega

/-! Reading a part. -/

theorem readLoop_ok : ∀ (pieces : List (Bytes × Bool)) (buf : Bytes) (whole : Bool),
    (readLoop buf whole pieces).2 = .ok →
    (readLoop buf whole pieces).1 = buf ++ (pieces.map (·.1)).flatten ∧ whole = true := by
  intro pieces
  induction pieces with
  | nil =>
    intro buf whole h
    cases whole
    · cases h
    · simp [readLoop]
  | cons p pieces ih =>
    obtain ⟨data, room⟩ := p
    intro buf whole h
    simp only [readLoop] at h ⊢
    by_cases hr : room = true ∨ data = []
    · rw [if_pos hr] at h ⊢
      obtain ⟨h1, h2⟩ := ih _ _ h
      exact ⟨by rw [h1]; simp, h2⟩
    · rw [if_neg hr] at h
      cases h

/-! The header. -/

theorem number_append (a b : List Nat) : number (a ++ b) = b.foldl (fun n c => n * 10 + (c - 48)) (number a) := by
  unfold number
  rw [List.foldl_append]

theorem dec_spec (n : Nat) : number (dec n) = n ∧ (∀ c ∈ dec n, Lex.isDigit c = true) ∧ dec n ≠ [] := by
  induction n using Nat.strongRecOn with
  | ind n ih =>
    rw [dec]
    by_cases h : n < 10
    · rw [if_pos h]
      refine ⟨by simp [number], ?_, by simp⟩
      intro c hc
      simp only [List.mem_cons, List.not_mem_nil, or_false] at hc
      subst hc
      simp [Lex.isDigit]
      omega
    · rw [if_neg h]
      obtain ⟨h1, h2, h3⟩ := ih (n / 10) (by omega)
      refine ⟨?_, ?_, by simp⟩
      · rw [number_append, h1]
        simp
        omega
      · intro c hc
        rcases List.mem_append.1 hc with hc | hc
        · exact h2 c hc
        · simp only [List.mem_cons, List.not_mem_nil, or_false] at hc
          subst hc
          simp [Lex.isDigit]
          omega

theorem dec_length : ∀ (k n : Nat), n < 10 ^ (k + 1) → (dec n).length ≤ k + 1 := by
  intro k
  induction k with
  | zero => intro n h; rw [dec, if_pos (by simpa using h)]; simp
  | succ k ih =>
    intro n h
    rw [dec]
    by_cases h' : n < 10
    · rw [if_pos h']; simp
    · rw [if_neg h']
      have := ih (n / 10) (by
        rw [Nat.div_lt_iff_lt_mul (by omega)]
        have : (10 : Nat) ^ (k + 1 + 1) = 10 ^ (k + 1) * 10 := Nat.pow_succ ..
        omega)
      simp
      omega

/-- The header is what it should be, and fits. -/
theorem range_understood {size offset : Nat} (h0 : 0 < size) (hs : size < 4294967296)
    (ho : offset + size < 18446744073709551616) :
    understood (range size offset) = some (offset, offset + size - 1) := by
  have e1 : wrapU32 ((size : Int) - 1) = size - 1 := by unfold wrapU32; omega
  have e2 : wrapU64 ((offset : Int) + (size - 1 : Nat)) = offset + size - 1 := by unfold wrapU64; omega
  obtain ⟨a1, a2, a3⟩ := dec_spec offset
  obtain ⟨b1, b2, b3⟩ := dec_spec (offset + size - 1)
  have l1 := dec_length 19 offset (by omega)
  have l2 := dec_length 19 (offset + size - 1) (by omega)
  have hr : range size offset = [98, 121, 116, 101, 115, 61] ++ dec offset ++ [45] ++ dec (offset + size - 1) := by
    unfold range S3.snprintf
    rw [e1, e2]
    have : (Lex.bytes "bytes=" ++ dec offset ++ Lex.bytes "-" ++ dec (offset + size - 1)).length ≤ 128 - 1 := by
      simp [Lex.bytes]
      omega
    rw [List.take_of_length_le this]
    simp [Lex.bytes]
  rw [hr]
  have htw : ∀ (l r : List Nat), (∀ c ∈ l, Lex.isDigit c = true) →
      (l ++ 45 :: r).takeWhile Lex.isDigit = l ∧ (l ++ 45 :: r).dropWhile Lex.isDigit = 45 :: r := by
    intro l r hl
    induction l with
    | nil => simp [Lex.isDigit]
    | cons c l ih =>
      obtain ⟨i1, i2⟩ := ih (fun c hc => hl c (by simp [hc]))
      have := hl c (by simp)
      simp [this, i1, i2]
  have hall : (dec (offset + size - 1)).all Lex.isDigit = true := by rw [List.all_eq_true]; exact b2
  obtain ⟨t1, t2⟩ := htw (dec offset) (dec (offset + size - 1)) a2
  simp only [List.cons_append, List.nil_append, List.append_assoc, understood]
  rw [t2]
  show (if (dec (offset + size - 1)).all Lex.isDigit = true then _ else none) = _
  rw [if_pos hall, t1, a1, b1]

end Verif.C62
