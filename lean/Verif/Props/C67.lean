import Verif.Proofs.C67

/-! C67: buffers grow and keep what was put into them. -/
namespace Verif.C67
open Buf

/-- C67 below 2^30 bytes.  Missing from `Full`: larger buffers, where it is false,
and vectors of more pieces or more bytes. -/
theorem C67_partial : FullFor Small VSmall := small

/-- Memory for everything. -/
def exampleAlloc : Alloc := ⟨fun _ => true, fun _ => 7⟩

/-- The hypotheses can be met: bytes are written, more space is asked for than
used, and some are taken away. -/
example : ∃ b, Reach Small b [1, 2, 4] := by
  have h0 : Reach Small buf_init [] := .init
  have h1 : Reach Small ⟨[1, 2, 3], 3, 3⟩ [1, 2, 3] :=
    .step exampleAlloc _ _ (.write [1, 2, 3]) _ h0 trivial (by simp [Small, room]) (by decide +kernel)
  have h2 : Reach Small ⟨[1, 2, 3], 2, 3⟩ [1, 2] := .step exampleAlloc _ _ (.truncate 1) _ h1 (by simp [Allowed]) (by simp [Small, room]) (by decide +kernel)
  have h3 : Reach Small ⟨[1, 2, 4, 7, 7, 7], 3, 6⟩ [1, 2, 4] :=
    .step exampleAlloc _ _ (.fill 3 [4]) _ h2 (by simp [Allowed]) (by simp [Small, room]) (by decide +kernel)
  exact ⟨_, h3⟩

example : ∃ v, VReach VSmall v [⟨4096, 24⟩] := by
  obtain ⟨v, e, -⟩ | ⟨-, n, hn⟩ := vstep_ok exampleAlloc (op := .add 4096 24) vinv_init (by simp [VAllowed, pow64]) (by simp [VSmall, pow31])
  · exact ⟨v, .step exampleAlloc _ _ (.add 4096 24) _ .init (by simp [VAllowed, pow64]) (by simp [VSmall, pow31]) e⟩
  · simp [exampleAlloc] at hn

theorem first_write {a : Alloc} {data : Bytes} {b : Buf} (h0 : 0 < data.length) (h1 : data.length < 2147483648)
    (e : step a buf_init (.write data) = .ok b) : Inv b data ∧ b.fin = data.length := by
  simp only [step, buf_write] at e
  rw [w32 (by omega) (by omega)] at e
  obtain ⟨b1, e1, e2⟩ := Res.bind_eq_ok.1 e
  have g : Inv b1 [] ∧ b1.fin = data.length := by
    unfold buf_reserve buf_size_unused buf_size buf_capacity at e1
    simp only [buf_init] at e1
    have z1 : wrapS32 (((0 : Nat) : Int) - (0 : Nat)) = 0 := by decide
    have z2 : wrapS32 ((0 : Nat) : Int) = 0 := by decide
    have z3 : ¬ (0 : Int) ≥ (data.length : Int) := by omega
    simp only [z1, z2, if_neg z3] at e1
    have i1 : int ((0 : Int) + data.length) = .ok (data.length : Int) := by
      unfold int; rw [Int.zero_add, if_pos (by omega)]
    have i2 : int ((0 : Int) * 2) = .ok 0 := by decide
    rw [i1, Res.bind_ok, i2, Res.bind_ok] at e1
    rw [if_pos (by omega)] at e1
    unfold mn_realloc at e1
    have hw : wrapU64 (data.length : Int) = data.length := by unfold wrapU64; omega
    dsimp only at e1
    rw [hw] at e1
    cases hc : a.can data.length with
    | false => rw [hc] at e1; simp at e1
    | true =>
      rw [hc] at e1
      simp only [if_true, Res.bind_ok, Res.ok.injEq] at e1
      subst e1
      refine ⟨⟨?_, rfl, rfl, ?_⟩, ?_⟩
      · simp
      · simp only [Int.toNat_natCast]; exact h1
      · simp
  obtain ⟨b2, p1, p2, p3, p4, p5⟩ := put_ok (d := data) g.1 (by rw [g.2]; simp)
  unfold buf_append at e2
  rw [if_neg (by omega)] at e2
  simp only [Int.toNat_natCast, List.take_length] at e2
  rw [p1, Res.bind_ok, p4] at e2
  simp only [Res.ok.injEq] at e2
  subst e2
  exact ⟨by simpa using p5, by rw [p2, g.2]⟩

/-- A buffer that is filled with 2^30 bytes or more at once cannot grow any more. -/
theorem C67_overflow : ∀ a data b x, 1073741824 ≤ data.length → data.length < 2147483648 →
    step a buf_init (.write data) = .ok b → x ≠ [] → x.length < 2147483648 → ∃ why, step a b (.write x) = .ub why := by
  intro a data b x h1 h2 e hx hxl
  obtain ⟨hi, hf⟩ := first_write (by omega) h2 e
  have hpos : 0 < x.length := List.length_pos_iff.2 hx
  obtain ⟨why, hw⟩ := grow_ub a hi (by omega) x.length hpos hf.symm
  refine ⟨why, ?_⟩
  simp only [step, buf_write]
  rw [w32 (by omega) (by omega), hw]
  rfl

theorem big : ∃ data : Bytes, data.length = 1073741824 := ⟨List.replicate 1073741824 0, List.length_replicate ..⟩

theorem big_write (data : Bytes) (hl : data.length = 1073741824) : ∃ b, step exampleAlloc buf_init (.write data) = .ok b := by
  have hs : Small [] (.write data) := by
    simp only [Small, room, List.length_nil]; omega
  rcases step_ok exampleAlloc (op := .write data) inv_init trivial hs with ⟨b, e, _⟩ | ⟨_, n, hn⟩
  · exact ⟨b, e⟩
  · simp [exampleAlloc] at hn

/-- The hypotheses can be met. -/
example : ∃ data b, data.length = 1073741824 ∧ step exampleAlloc buf_init (.write data) = .ok b := by
  obtain ⟨data, hl⟩ := big
  obtain ⟨b, e⟩ := big_write data hl
  exact ⟨data, b, hl, e⟩

/-- The size of a vector of pieces overflows with 2^31 bytes. -/
theorem C67_pieces : ∀ a v l pointer size, VReach VSmall v l → (∀ n, a.can n = true) → l.length < 67108864 →
    size < pow31 → pow31 ≤ (l.map (·.len)).sum + size → ∃ why, vstep a v (.add pointer size) = .ub why := by
  intro a v l pointer size hr hc hl hs ho
  have h := vreach_inv hr
  simp only [pow31] at hs ho
  have hlen := vbytes_length l
  have hsum := h.sum
  simp only [pow31] at hsum
  simp only [vstep, iov_add]
  rw [w32 (by omega) (by omega)]
  rcases reserve_ok a h.inv 16 (by omega) with ⟨b1, e1, h1, hf⟩ | ⟨_, n, hn⟩
  · have hb := bytes_length ⟨pointer, wrapU64 size⟩
    obtain ⟨b2, e2, _, _, e3, _⟩ := put_ok h1 (d := Iovec.bytes ⟨pointer, wrapU64 size⟩) (by rw [hb]; omega)
    rw [hb] at e3
    have i1 : int (v.iov_count + 1) = .ok (v.iov_count + 1) := by
      unfold int; rw [if_pos]; rw [h.count]; omega
    have i2 : int (v.size + size) = .ub "signed overflow" := by
      unfold int; rw [if_neg]; rw [h.size]; omega
    rw [show ((16 : Nat) : Int) = 16 from rfl] at e1
    rw [e1, Res.bind_ok, e2, Res.bind_ok, e3, Res.bind_ok, i1, Res.bind_ok, i2]
    exact ⟨_, rfl⟩
  · rw [hc n] at hn; cases hn

example : ∃ v, VReach VSmall v [⟨4096, 2000000000⟩] ∧ pow31 ≤ (([⟨4096, 2000000000⟩] : List Iovec).map (·.len)).sum + 2000000000 := by
  obtain ⟨v, e, -⟩ | ⟨-, n, hn⟩ := vstep_ok exampleAlloc (op := .add 4096 2000000000) vinv_init (by simp [VAllowed, pow64]) (by simp [VSmall, pow31])
  · exact ⟨v, .step exampleAlloc _ _ (.add 4096 2000000000) _ .init (by simp [VAllowed, pow64]) (by simp [VSmall, pow31]) e, by decide⟩
  · simp [exampleAlloc] at hn

/-- C67 is false of the code: a buffer with 2^30 bytes. -/
theorem C67_false : ¬ Full := by
  intro h
  obtain ⟨data, hl⟩ := big
  obtain ⟨b, e⟩ := big_write data hl
  have hr : Reach (fun _ _ => True) b ([] ++ data) := .step exampleAlloc _ _ (.write data) _ .init trivial trivial e
  obtain ⟨why, hw⟩ := C67_overflow exampleAlloc _ b [1] (by omega) (by omega) e (by simp) (by simp)
  rcases (h.1 _ _ hr).2.2 (.write [1]) trivial trivial exampleAlloc with ⟨b', e'⟩ | ⟨⟨m, e'⟩, _⟩
  · rw [hw] at e'; cases e'
  · rw [hw] at e'; cases e'

end Verif.C67
