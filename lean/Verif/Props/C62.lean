import Verif.Proofs.C62

/-! C62: what is read back from the cloud is what was put there. -/
namespace Verif.C62
open Vfs Transfer

/-- An upload that succeeds stores exactly the file, and one that fails or hangs
leaves the old object or the whole file: no part of a file is ever stored. -/
theorem C62_upload (object : Option Bytes) (file : Bytes) (pieces : List (Nat × List Ans)) (reply : Reply) :
    Uploaded object file (upload object file pieces reply) := by
  have hbody : ∀ x, (if file.length = 0 then ([], Code.ok) else uploadLoop file file.length 0 pieces) = (x, .ok) →
      x = file := by
    intro x h
    by_cases h0 : file.length = 0
    · rw [if_pos h0] at h
      have : file = [] := List.length_eq_zero_iff.1 h0
      cases h
      exact this.symm
    · rw [if_neg h0] at h
      have := uploadLoop_ok (file := file) pieces 0 (by omega) (by rw [h])
      rw [h] at this
      simpa using this
  unfold upload
  dsimp only
  generalize (if file.length = 0 then ([], Code.ok) else uploadLoop file file.length 0 pieces) = body at hbody ⊢
  obtain ⟨x, c⟩ := body
  cases c with
  | ok =>
    have hx := hbody x rfl
    subst hx
    cases reply <;> simp [Uploaded]
  | failed => simp [Uploaded]
  | waiting => simp [Uploaded]

/-- An upload succeeds if nothing goes wrong. -/
theorem C62_upload_succeeds (object : Option Bytes) (file : Bytes) (pieces : List (Nat × List Ans))
    (hf : ∀ p ∈ pieces, UploadFine p) (hl : file.length ≤ pieces.length) :
    upload object file pieces .done = (some file, .ok) := by
  have hu := (C62_upload object file pieces .done).1
  have : (upload object file pieces .done).2 = .ok := by
    unfold upload
    dsimp only
    by_cases h0 : file.length = 0
    · rw [if_pos h0]
    · rw [if_neg h0]
      have := uploadLoop_fine (file := file) pieces 0 (by omega) hf (by omega)
      cases hr : uploadLoop file file.length 0 pieces with
      | mk x c => rw [hr] at this; dsimp only at this; subst this; rfl
  exact Prod.ext (hu this) this

/-- Three bytes are sent although the reads are interrupted and short. -/
example : (∀ p ∈ [(2, [Ans.eintr, .bytes 1, .bytes 7]), (9, [.bytes 2, .bytes 1, .bytes 1, .bytes 1, .bytes 1, .bytes 1, .bytes 1,
      .bytes 1, .bytes 1]), (1, [.bytes 1])], UploadFine p) ∧
    upload (some [9]) [1, 2, 3] [(2, [.eintr, .bytes 1, .bytes 7]), (9, [.bytes 2, .bytes 1, .bytes 1, .bytes 1, .bytes 1, .bytes 1,
      .bytes 1, .bytes 1, .bytes 1]), (1, [.bytes 1])] .done = (some [1, 2, 3], .ok) := by
  refine ⟨?_, by decide +kernel⟩
  unfold UploadFine C56.Good
  decide

/-- A download that succeeds leaves exactly the object in the file, with its size. -/
theorem C62_download (object : Bytes) (whole : Bool) (pieces : List (Bytes × List Ans))
    (hd : Delivers whole (pieces.map (·.1)) object) : Downloaded object (download whole pieces) := by
  intro h
  obtain ⟨h1, h2, h3⟩ := downloadLoop_ok pieces _ whole h
  have := hd.2 h3
  rw [this] at h1 h2
  exact ⟨by simpa [download] using h1, by simpa [download] using h2⟩

/-- A download succeeds if nothing goes wrong. -/
theorem C62_download_succeeds (pieces : List (Bytes × List Ans)) (hf : ∀ p ∈ pieces, DownloadFine p) :
    (download true pieces).2 = .ok :=
  downloadLoop_fine pieces _ hf

/-- The file that was uploaded comes back: however it was sent and delivered in
pieces, with whatever failures before the attempts that succeed. -/
theorem C62_round_trip (object : Option Bytes) (file o : Bytes) (up : List (Nat × List Ans)) (reply : Reply) (whole : Bool)
    (down : List (Bytes × List Ans)) (hu : (upload object file up reply).2 = .ok)
    (ho : (upload object file up reply).1 = some o) (hd : Delivers whole (down.map (·.1)) o)
    (h : (download whole down).2 = .ok) : (download whole down).1 = ⟨file, file.length⟩ := by
  have h1 := (C62_upload object file up reply).1 hu
  rw [ho] at h1
  obtain rfl : o = file := by injection h1
  have h2 := C62_download o whole down hd h
  cases hr : (download whole down).1 with
  | mk b s => rw [hr] at h2; simp only [File.mk.injEq]; exact h2

example : (upload none [1, 2, 3] [(2, [.bytes 2]), (2, [.bytes 1])] .done) = (some [1, 2, 3], .ok) ∧
    Delivers true ([(([1] : Bytes), [Ans.bytes 1]), ([2, 3], [.bytes 1, .eintr, .bytes 1])].map (·.1)) [1, 2, 3] ∧
    download true [([1], [.bytes 1]), ([2, 3], [.bytes 1, .eintr, .bytes 1])] = (⟨[1, 2, 3], 3⟩, .ok) := by
  refine ⟨by decide +kernel, ⟨?_, fun _ => rfl⟩, by decide +kernel⟩
  exact ⟨[], rfl⟩

/-- Reading a part from a server that supports ranges: success means exactly that
part.  (Missing for the full property: a server that does not.) -/
theorem C62_read_partial (object : Bytes) (size offset : Nat) (body : Bytes) (whole : Bool) (pieces : List (Bytes × Bool))
    (h0 : 0 < size) (hs : size < 4294967296) (hl : offset + size ≤ object.length)
    (hm : object.length < 18446744073709551616) (hserve : serve true object (range size offset) = some body)
    (hd : Delivers whole (pieces.map (·.1)) body) : Read object size offset (read whole pieces) := by
  intro h
  obtain ⟨h1, h2⟩ := readLoop_ok pieces _ whole h
  have := hd.2 h2
  rw [this] at h1
  unfold Transfer.read
  rw [h1]
  unfold serve at hserve
  rw [if_pos rfl, range_understood h0 hs (by omega)] at hserve
  dsimp only at hserve
  rw [if_pos ⟨by omega, by omega⟩] at hserve
  have e : offset + size - 1 + 1 - offset = size := by omega
  rw [e] at hserve
  injection hserve with hserve
  rw [← hserve]
  rfl

set_option maxRecDepth 100000 in
example : serve true [1, 2, 3, 4, 5] (range 2 1) = some [2, 3] ∧
    read true [([2], true), ([3], true)] = ([2, 3], .ok) ∧ range 2 1 = Lex.bytes "bytes=1-2" := by
  have : range 2 1 = Lex.bytes "bytes=1-2" := by
    unfold range
    rw [show dec 1 = [49] from by rw [dec]; rfl, show wrapU64 ((1 : Nat) + (wrapU32 ((2 : Nat) - 1) : Nat)) = 2 from by decide,
      show dec 2 = [50] from by rw [dec]; rfl]
    decide +kernel
  rw [this]
  decide +kernel

/-- The part asked for never reaches past its last byte: a range of `size` bytes is
asked for as exactly that many. -/
theorem C62_range {size offset : Nat} (h0 : 0 < size) (hs : size < 4294967296)
    (ho : offset + size < 18446744073709551616) :
    ∃ a b, understood (range size offset) = some (a, b) ∧ a = offset ∧ b + 1 - a = size :=
  ⟨offset, offset + size - 1, range_understood h0 hs ho, rfl, by omega⟩

/-- No bytes are asked for as 4294967296. -/
theorem C62_range_zero : range 0 0 = Lex.bytes "bytes=0-4294967295" := by
  unfold range
  rw [show dec 0 = [48] from by rw [dec]; rfl,
    show wrapU64 ((0 : Nat) + (wrapU32 ((0 : Nat) - 1) : Nat)) = 4294967295 from by decide]
  have : dec 4294967295 = Lex.bytes "4294967295" := by
    iterate 10 rw [dec]
    decide +kernel
  rw [this]
  decide +kernel

/-- A server that ignores the range sends the whole object; the request succeeds,
and the buffer begins with the wrong bytes. -/
theorem C62_ignored (object : Bytes) (size offset : Nat) :
    serve false object (range size offset) = some object ∧ read true [(object, true)] = (object, .ok) := by
  refine ⟨rfl, ?_⟩
  simp [Transfer.read, readLoop]

/-- The full property is false. -/
theorem C62_false : ¬ Full := by
  intro h
  have h1 := h.2.2 false [1, 2, 3] 1 1 [1, 2, 3] true [([1, 2, 3], true)] (by decide) (by decide) (by decide) (by decide)
    (C62_ignored [1, 2, 3] 1 1).1 ⟨⟨[], rfl⟩, fun _ => rfl⟩ (by rw [(C62_ignored [1, 2, 3] 1 1).2])
  rw [(C62_ignored [1, 2, 3] 1 1).2] at h1
  exact absurd h1 (by decide)

end Verif.C62
