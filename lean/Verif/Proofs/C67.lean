import Verif.Spec.C67
import Verif.Proofs.Bytes

/-! Growing buffers (used by C67). -/
namespace Verif.C67
open Buf

/-- The buffer has these bytes. -/
structure Inv (b : Buf) (c : Bytes) : Prop where
  fin : b.fin = b.block.length
  pos : b.position = c.length
  take : b.block.take c.length = c
  small : b.fin < 2147483648

theorem Inv.le {b : Buf} {c : Bytes} (h : Inv b c) : c.length ≤ b.fin := by
  have := congrArg List.length h.take
  rw [List.length_take] at this
  rw [h.fin]; omega

theorem w32 {x : Int} (h1 : -2147483648 ≤ x) (h2 : x < 2147483648) : wrapS32 x = x := wrapS32_id h1 h2

theorem reserve_ok (a : Alloc) {b : Buf} {c : Bytes} (h : Inv b c) (size : Nat) (hs : c.length + size ≤ 1073741824) :
    (∃ b', buf_reserve a b size = .ok b' ∧ Inv b' c ∧ c.length + size ≤ b'.fin) ∨
    ((∃ e, buf_reserve a b size = .err e) ∧ ∃ n, a.can n = false) := by
  have hle := h.le
  have hsm := h.small
  have hpos := h.pos
  unfold buf_reserve buf_size_unused buf_size buf_capacity
  rw [w32 (by omega) (by omega), w32 (by omega) (by omega), w32 (by omega) (by omega)]
  split
  · exact .inl ⟨b, rfl, h, by omega⟩
  · rename_i hge
    have i1 : int ((b.position : Int) + size) = .ok ((b.position : Int) + size) := by
      unfold int; rw [if_pos (by omega)]
    have i2 : int ((b.fin : Int) * 2) = .ok ((b.fin : Int) * 2) := by
      unfold int; rw [if_pos (by omega)]
    rw [i1, Res.bind_ok, i2, Res.bind_ok]
    dsimp only
    generalize hg : (if (b.position : Int) + size > (b.fin : Int) * 2 then (b.position : Int) + size else (b.fin : Int) * 2) = g
    have hg1 : (c.length : Int) + size ≤ g := by rw [← hg]; split <;> omega
    have hg2 : g < 2147483648 := by rw [← hg]; split <;> omega
    have hg3 : (b.fin : Int) ≤ g := by rw [← hg]; split <;> omega
    have hw : wrapU64 g = g.toNat := by unfold wrapU64; omega
    unfold mn_realloc
    dsimp only
    rw [hw]
    cases hc : a.can g.toNat with
    | false => exact .inr ⟨⟨"system error", by simp⟩, _, hc⟩
    | true =>
      refine .inl ⟨⟨b.block.take g.toNat ++ (List.range (g.toNat - b.block.length)).map a.junk, b.position, g.toNat⟩,
        by simp only [if_true, Res.bind_ok], ⟨?_, hpos, ?_, ?_⟩, ?_⟩
      · simp only [List.length_append, List.length_take, List.length_map, List.length_range]
        have := h.fin
        omega
      · dsimp only
        have h1 : List.take g.toNat b.block = b.block := List.take_of_length_le (by have := h.fin; omega)
        rw [h1, List.take_append_of_le_length (by have := h.fin; omega), h.take]
      · dsimp only; omega
      · dsimp only; omega

theorem put_ok {b : Buf} {c d : Bytes} (h : Inv b c) (hd : c.length + d.length ≤ b.fin) :
    ∃ b', put b d = .ok b' ∧ b'.fin = b.fin ∧ b'.position = b.position ∧
      ((buf_advance b' d.length) = .ok { b' with position := b'.position + d.length }) ∧
      Inv { b' with position := b'.position + d.length } (c ++ d) := by
  have hle := h.le
  have hfin := h.fin
  have hpos := h.pos
  unfold put
  rw [if_pos (by omega)]
  refine ⟨_, rfl, rfl, rfl, ?_, ⟨?_, ?_, ?_, h.small⟩⟩
  · unfold buf_advance
    rw [if_pos (by dsimp only; omega)]
  · simp only [List.length_append, List.length_take, List.length_drop]
    omega
  · simp only [List.length_append]; omega
  · dsimp only
    rw [hpos, h.take, List.take_append_of_le_length (by simp), List.take_of_length_le (by simp)]

theorem step_ok (a : Alloc) {b : Buf} {c : Bytes} {op : Op} (h : Inv b c) (ha : Allowed c op) (hs : Small c op) :
    (∃ b', step a b op = .ok b' ∧ Inv b' (after c op)) ∨ ((∃ e, step a b op = .err e) ∧ ∃ n, a.can n = false) := by
  have hle := h.le
  have hpos := h.pos
  unfold Small at hs
  cases op with
  | write data =>
    simp only [room] at hs
    simp only [step, buf_write]
    rw [w32 (by omega) (by omega)]
    rcases reserve_ok a h data.length hs with ⟨b1, e1, h1, hf⟩ | ⟨⟨e, he⟩, hn⟩
    · obtain ⟨b2, e2, _, _, e3, h3⟩ := put_ok h1 hf
      refine .inl ⟨_, ?_, h3⟩
      rw [e1, Res.bind_ok]
      unfold buf_append
      rw [if_neg (by omega)]
      simp only [Int.toNat_natCast, List.take_length]
      rw [e2, Res.bind_ok, e3]
    · exact .inr ⟨⟨e, by rw [he]; rfl⟩, hn⟩
  | fill size data =>
    simp only [room] at hs
    simp only [Allowed] at ha
    simp only [step, buf_fill]
    rw [w32 (by omega) (by omega)]
    rcases reserve_ok a h size hs with ⟨b1, e1, h1, hf⟩ | ⟨⟨e, he⟩, hn⟩
    · obtain ⟨b2, e2, _, _, e3, h3⟩ := put_ok h1 (d := data) (by omega)
      refine .inl ⟨_, ?_, h3⟩
      rw [e1, Res.bind_ok, e2, Res.bind_ok, e3]
    · exact .inr ⟨⟨e, by rw [he]; rfl⟩, hn⟩
  | truncate n =>
    simp only [Allowed] at ha
    refine .inl ⟨{ b with position := b.position - n }, ?_, ⟨h.fin, ?_, ?_, h.small⟩⟩
    · simp only [step, buf_truncate]
      rw [if_pos (by omega)]
    · simp only [after, List.length_take]; omega
    · simp only [after, List.length_take]
      rw [Nat.min_eq_left (by omega)]
      have := congrArg (List.take (c.length - n)) h.take
      rw [List.take_take, Nat.min_eq_left (by omega)] at this
      exact this
  | reset =>
    exact .inl ⟨_, rfl, ⟨h.fin, rfl, rfl, h.small⟩⟩

theorem inv_init : Inv buf_init [] := ⟨rfl, rfl, rfl, by decide⟩

theorem reach_inv {b : Buf} {c : Bytes} (h : Reach Small b c) : Inv b c := by
  induction h with
  | init => exact inv_init
  | step a b c op b' _ ha hs e ih =>
    rcases step_ok a ih ha hs with ⟨b1, e1, h1⟩ | ⟨⟨m, he⟩, _⟩
    · rw [e] at e1; cases e1; exact h1
    · rw [e] at he; cases he

theorem str_ok {b : Buf} {c : Bytes} (h : Inv b c) : buf_str b = .ok c ∧ buf_size b = c.length := by
  have hle := h.le
  have hsm := h.small
  have hpos := h.pos
  have e : buf_size b = c.length := by unfold buf_size; rw [w32 (by omega) (by omega), hpos]
  refine ⟨?_, e⟩
  unfold buf_str
  dsimp only
  rw [e, if_pos ⟨by omega, by rw [← h.fin]; omega⟩]
  rw [Int.toNat_natCast, h.take]

/-! Vectors. -/

/-- The bytes of the pieces. -/
def vbytes (l : List Iovec) : Bytes := l.flatMap Iovec.bytes

theorem bytes_length (v : Iovec) : v.bytes.length = 16 := by simp [Iovec.bytes]

theorem vbytes_length (l : List Iovec) : (vbytes l).length = 16 * l.length := by
  induction l with
  | nil => rfl
  | cons x l ih => simp only [vbytes, List.flatMap_cons, List.length_append, bytes_length, List.length_cons] at ih ⊢; omega

/-- The vector has these pieces. -/
structure VInv (v : Iov) (l : List Iovec) : Prop where
  inv : Inv v.iov (vbytes l)
  count : v.iov_count = l.length
  size : v.size = ((l.map (·.len)).sum : Nat)
  fits : ∀ x ∈ l, x.base < pow64 ∧ x.len < pow64
  few : l.length ≤ 67108864
  sum : (l.map (·.len)).sum < pow31

theorem vstep_ok (a : Alloc) {v : Iov} {l : List Iovec} {op : VOp} (h : VInv v l) (ha : VAllowed op) (hs : VSmall l op) :
    (∃ v', vstep a v op = .ok v' ∧ VInv v' (vafter l op)) ∨ ((∃ e, vstep a v op = .err e) ∧ ∃ n, a.can n = false) := by
  cases op with
  | add pointer size =>
    simp only [VSmall] at hs
    simp only [VAllowed] at ha
    obtain ⟨hs1, hs2⟩ := hs
    simp only [pow31, pow64] at hs2 ha
    have hlen := vbytes_length l
    simp only [vstep, iov_add]
    rw [w32 (by omega) (by omega)]
    have hw : wrapU64 (size : Int) = size := by unfold wrapU64; omega
    rw [hw]
    rcases reserve_ok a h.inv 16 (by omega) with ⟨b1, e1, h1, hf⟩ | ⟨⟨e, he⟩, hn⟩
    · have hl := bytes_length ⟨pointer, size⟩
      obtain ⟨b2, e2, _, _, e3, h3⟩ := put_ok h1 (d := Iovec.bytes ⟨pointer, size⟩) (by rw [hl]; omega)
      rw [hl] at e3 h3
      have i1 : int (v.iov_count + 1) = .ok (v.iov_count + 1) := by
        unfold int; rw [if_pos]; rw [h.count]; omega
      have i2 : int (v.size + size) = .ok (v.size + size) := by
        unfold int; rw [if_pos]; rw [h.size]; omega
      refine .inl ⟨⟨{ b2 with position := b2.position + 16 }, v.iov_count + 1, v.size + size⟩, ?_, ?_, ?_, ?_, ?_, ?_, ?_⟩
      · rw [show ((16 : Nat) : Int) = 16 from rfl] at e1
        rw [e1, Res.bind_ok, e2, Res.bind_ok, e3, Res.bind_ok, i1, Res.bind_ok, i2, Res.bind_ok]
      · simp only [vafter, vbytes, List.flatMap_append, List.flatMap_cons, List.flatMap_nil, List.append_nil]
        exact h3
      · simp only [vafter, List.length_append, List.length_singleton]; rw [h.count]; omega
      · simp only [vafter, List.map_append, List.sum_append, List.map_cons, List.map_nil, List.sum_cons, List.sum_nil]
        rw [h.size]; omega
      · intro x hx
        simp only [vafter, List.mem_append, List.mem_singleton] at hx
        rcases hx with hx | rfl
        · exact h.fits x hx
        · exact ⟨by simpa using ha, by simp only [pow64]; omega⟩
      · simp only [vafter, List.length_append, List.length_singleton]; omega
      · simp only [vafter, List.map_append, List.sum_append, List.map_cons, List.map_nil, List.sum_cons, List.sum_nil, pow31]
        omega
    · refine .inr ⟨⟨e, ?_⟩, hn⟩
      rw [show ((16 : Nat) : Int) = 16 from rfl] at he
      rw [he]; rfl
  | reset =>
    refine .inl ⟨_, rfl, ⟨⟨h.inv.fin, rfl, rfl, h.inv.small⟩, rfl, rfl, by simp [vafter], by simp [vafter], by simp [vafter]⟩⟩

theorem vinv_init : VInv iov_init [] := ⟨inv_init, rfl, rfl, by simp, by simp, by simp⟩

theorem vreach_inv {v : Iov} {l : List Iovec} (h : VReach VSmall v l) : VInv v l := by
  induction h with
  | init => exact vinv_init
  | step a v l op v' _ ha hs e ih =>
    rcases vstep_ok a ih ha hs with ⟨v1, e1, h1⟩ | ⟨⟨m, he⟩, _⟩
    · rw [e] at e1; cases e1; exact h1
    · rw [e] at he; cases he

theorem piece_at (x : Iovec) (hx : x.base < pow64 ∧ x.len < pow64) :
    (⟨leVal (x.bytes.take 8), leVal (x.bytes.drop 8)⟩ : Iovec) = x := by
  have h1 : x.bytes.take 8 = le 8 x.base := by
    unfold Iovec.bytes; rw [List.take_append_of_le_length (by simp), List.take_of_length_le (by simp)]
  have h2 : x.bytes.drop 8 = le 8 x.len := by
    unfold Iovec.bytes; rw [List.drop_append_of_le_length (by simp), List.drop_of_length_le (by simp)]; rfl
  rw [h1, h2, leVal_le_lt (by simpa using hx.1), leVal_le_lt (by simpa using hx.2)]

theorem vbytes_at : ∀ (l : List Iovec) (i : Nat) (hi : i < l.length) (rest : Bytes),
    ((vbytes l ++ rest).drop (16 * i)).take 16 = l[i].bytes
  | [], i, hi, _ => by simp at hi
  | x :: l, 0, _, rest => by
    simp only [vbytes, List.flatMap_cons, Nat.mul_zero, List.drop_zero, List.append_assoc, List.getElem_cons_zero]
    rw [List.take_append_of_le_length (by rw [bytes_length]; omega), List.take_of_length_le (by rw [bytes_length]; omega)]
  | x :: l, i + 1, hi, rest => by
    have ih := vbytes_at l i (by simpa using hi) rest
    simp only [vbytes, List.flatMap_cons, List.append_assoc, List.getElem_cons_succ] at ih ⊢
    rw [show 16 * (i + 1) = x.bytes.length + 16 * i by rw [bytes_length]; omega, List.drop_length_add_append]
    exact ih

theorem pieces_ok {v : Iov} {l : List Iovec} (h : VInv v l) : pieces v = l.map .ok := by
  unfold pieces
  rw [h.count, Int.toNat_natCast]
  refine List.ext_getElem (by simp) fun i h1 h2 => ?_
  have hi : i < l.length := by simpa using h2
  simp only [List.getElem_map, List.getElem_range]
  have hb : v.iov.block = vbytes l ++ v.iov.block.drop (vbytes l).length := by
    conv => lhs; rw [← List.take_append_drop (vbytes l).length v.iov.block, h.inv.take]
  have hle := h.inv.le
  rw [h.inv.fin, vbytes_length] at hle
  unfold iov_at
  rw [if_pos (by omega)]
  dsimp only
  rw [hb, vbytes_at l i hi, piece_at _ (h.fits _ (List.getElem_mem hi))]

theorem small : FullFor Small VSmall := by
  refine ⟨fun b c h => ?_, fun v l h => ?_⟩
  · have hi := reach_inv h
    refine ⟨(str_ok hi).1, (str_ok hi).2, fun op ha hs a => ?_⟩
    rcases step_ok a hi ha hs with ⟨b', e, _⟩ | h
    · exact .inl ⟨b', e⟩
    · exact .inr h
  · have hi := vreach_inv h
    refine ⟨pieces_ok hi, hi.count, fun op ha hs a => ?_⟩
    rcases vstep_ok a hi ha hs with ⟨b', e, _⟩ | h
    · exact .inl ⟨b', e⟩
    · exact .inr h

/-- A full buffer with 2^30 bytes or more cannot grow: twice its capacity is not an
`int`. -/
theorem grow_ub (a : Alloc) {b : Buf} {c : Bytes} (h : Inv b c) (hc : 1073741824 ≤ b.fin) (size : Nat) (hs : 0 < size)
    (hf : c.length = b.fin) : ∃ why, buf_reserve a b size = .ub why := by
  have hsm := h.small
  have hpos := h.pos
  unfold buf_reserve buf_size_unused buf_size buf_capacity
  rw [w32 (by omega) (by omega), w32 (by omega) (by omega), w32 (by omega) (by omega), if_neg (by omega)]
  have i2 : int ((b.fin : Int) * 2) = .ub "signed overflow" := by
    unfold int; rw [if_neg (by omega)]
  rw [i2]
  by_cases hb : (b.position : Int) + size < 2147483648
  · have i1 : int ((b.position : Int) + size) = .ok ((b.position : Int) + size) := by
      unfold int; rw [if_pos (by omega)]
    rw [i1]
    exact ⟨_, rfl⟩
  · have i1 : int ((b.position : Int) + size) = .ub "signed overflow" := by
      unfold int; rw [if_neg (by omega)]
    rw [i1]
    exact ⟨_, rfl⟩

end Verif.C67
