import Verif.Model.Crc
import Verif.Spec.Crc
import Verif.Proofs.Bytes

namespace Verif.Crc
open CrcSpec

theorem shift_xor (a b : BitVec 32) : shift (a ^^^ b) = shift a ^^^ shift b := by
  unfold shift
  rw [BitVec.getLsbD_xor, BitVec.ushiftRight_xor_distrib]
  generalize a >>> 1 = a'
  generalize b >>> 1 = b'
  generalize (0x82f63b78#32) = p
  cases a.getLsbD 0 <;> cases b.getLsbD 0 <;> simp
  · rw [BitVec.xor_assoc]
  · rw [BitVec.xor_assoc, BitVec.xor_assoc, BitVec.xor_comm b' p]
  · rw [BitVec.xor_assoc, ← BitVec.xor_assoc p, BitVec.xor_comm p b', BitVec.xor_assoc b', BitVec.xor_self,
      BitVec.xor_zero]

theorem shift_zero : shift 0#32 = 0#32 := by decide +kernel

/-- `n` shifts. -/
def sh : Nat → BitVec 32 → BitVec 32
  | 0, c => c
  | n + 1, c => sh n (shift c)

theorem sh_xor (n : Nat) (a b : BitVec 32) : sh n (a ^^^ b) = sh n a ^^^ sh n b := by
  induction n generalizing a b with
  | zero => rfl
  | succ n ih => simp only [sh, shift_xor, ih]

theorem sh_zero (n : Nat) : sh n 0#32 = 0#32 := by
  induction n with
  | zero => rfl
  | succ n ih => simp only [sh, shift_zero, ih]

theorem sh_add (m n : Nat) (c : BitVec 32) : sh (m + n) c = sh m (sh n c) := by
  induction n generalizing c with
  | zero => rfl
  | succ n ih => rw [← Nat.add_assoc]; simp only [sh, ih]

theorem divide_eq (r : BitVec 32) (b : Bool) : divide r b = shift (r ^^^ bit b) := by
  unfold divide shift bit
  cases b with
  | false => simp
  | true =>
    have h : (r ^^^ 1#32) >>> 1 = r >>> 1 := by
      rw [BitVec.ushiftRight_xor_distrib]
      have : (1#32 >>> 1) = 0#32 := by decide
      rw [this, BitVec.xor_zero]
    simp only [if_true, h, BitVec.getLsbD_xor]
    have : (1#32).getLsbD 0 = true := by decide
    rw [this]

/-- Bits as a number, lowest first. -/
def num : List Bool → Nat
  | [] => 0
  | b :: bs => b.toNat + 2 * num bs

theorem num_lt (bs : List Bool) : num bs < 2 ^ bs.length := by
  induction bs with
  | nil => simp [num]
  | cons b bs ih =>
    have := Bool.toNat_lt b
    simp only [num, List.length_cons, Nat.pow_succ]; omega

theorem num_inj {xs ys : List Bool} (hl : xs.length = ys.length) (h : num xs = num ys) : xs = ys := by
  induction xs generalizing ys with
  | nil => cases ys with
    | nil => rfl
    | cons => simp at hl
  | cons x xs ih =>
    cases ys with
    | nil => simp at hl
    | cons y ys =>
      simp only [num] at h
      have hx := Bool.toNat_lt x
      have hy := Bool.toNat_lt y
      have h1 : x.toNat = y.toNat := by omega
      have h2 : num xs = num ys := by omega
      rw [ih (by simpa using hl) h2]
      congr 1
      cases x <;> cases y <;> simp_all

/-- Shifting an even number halves it. -/
theorem shift_double {y : Nat} (h : 2 * y < 4294967296) : shift (BitVec.ofNat 32 (2 * y)) = BitVec.ofNat 32 y := by
  unfold shift
  have h0 : (BitVec.ofNat 32 (2 * y)).getLsbD 0 = false := by
    rw [BitVec.getLsbD_ofNat]; simp [Nat.testBit, Nat.mul_comm]
  rw [h0]
  apply BitVec.eq_of_toNat_eq
  simp only [Bool.false_eq_true, if_false, BitVec.toNat_ushiftRight, BitVec.toNat_ofNat, Nat.shiftRight_eq_div_pow]
  omega

theorem bit_eq (b : Bool) : bit b = BitVec.ofNat 32 b.toNat := by cases b <;> rfl

theorem cons_xor (b : Bool) {y : Nat} (h : 2 * y < 4294967296) :
    BitVec.ofNat 32 (b.toNat + 2 * y) = bit b ^^^ BitVec.ofNat 32 (2 * y) := by
  apply BitVec.eq_of_toNat_eq
  cases b with
  | false => simp [bit]
  | true =>
    simp only [bit, if_true, BitVec.toNat_xor, BitVec.toNat_ofNat, Bool.toNat_true]
    have h1 : (2 * y) % 2 ^ 32 = 2 * y := by omega
    have h2 : (1 + 2 * y) % 2 ^ 32 = 2 * y + 1 := by omega
    have h3 : 1 % 2 ^ 32 = 1 := by decide
    rw [h1, h2, h3]
    apply Nat.eq_of_testBit_eq
    intro i
    cases i with
    | zero => simp
    | succ i =>
      rw [Nat.testBit_xor, Nat.testBit_succ, Nat.testBit_succ, Nat.testBit_succ]
      have e1 : (2 * y + 1) / 2 = y := by omega
      have e2 : (2 * y) / 2 = y := by omega
      have e3 : 1 / 2 = 0 := by decide
      rw [e1, e2, e3]; simp

/-- Feeding at most 32 bits is the same as adding them to the register first. -/
theorem feed (bs : List Bool) (c : BitVec 32) (h : bs.length ≤ 32) :
    bs.foldl divide c = sh bs.length (c ^^^ BitVec.ofNat 32 (num bs)) := by
  induction bs generalizing c with
  | nil => simp [sh, num]
  | cons b bs ih =>
    have hn := num_lt bs
    have hp : 2 ^ bs.length ≤ 2 ^ 31 := Nat.pow_le_pow_right (by omega) (by simp at h; omega)
    have h2 : 2 * num bs < 4294967296 := by omega
    simp only [List.foldl_cons, List.length_cons, sh, num]
    rw [ih _ (by simp at h; omega), divide_eq, cons_xor b h2, ← BitVec.xor_assoc, shift_xor (c ^^^ bit b),
      shift_double h2]

theorem range_append (m n : Nat) : List.range (m + n) = List.range m ++ (List.range n).map (m + ·) := by
  rw [List.range_add]

/-- The bits of a string are the bits of the little-endian number it holds. -/
theorem bits_leVal (bs : Bytes) : (List.range (8 * bs.length)).map (fun i => (leVal bs).testBit i) = bits bs := by
  induction bs with
  | nil => rfl
  | cons b bs ih =>
    have hb : b.toNat < 2 ^ 8 := by have := b.toNat_lt; simpa using this
    have he : leVal (b :: bs) = 2 ^ 8 * leVal bs + b.toNat := by simp [leVal]; omega
    have hl : 8 * (b :: bs).length = 8 + 8 * bs.length := by simp; omega
    rw [hl, range_append, List.map_append, List.map_map, he]
    have e : bits (b :: bs) = byteBits b ++ bits bs := by simp [bits]
    rw [e, ← ih]
    congr 1
    · apply List.map_congr_left
      intro i hi
      rw [Nat.testBit_two_pow_mul_add _ hb, if_pos (List.mem_range.1 hi)]
    · apply List.map_congr_left
      intro i hi
      simp only [Function.comp]
      rw [Nat.testBit_two_pow_mul_add _ hb, if_neg (by omega)]
      congr 1; omega

theorem insn_eq (n : Nat) (c : BitVec 32) (x : Nat) :
    insn n c x = ((List.range n).map fun i => x.testBit i).foldl divide c := by
  unfold insn
  rw [List.foldl_map]
  congr 1
  funext c i
  rw [divide_eq]

theorem byteBits_length (b : UInt8) : (byteBits b).length = 8 := by simp [byteBits]

theorem bits_length (bs : Bytes) : (bits bs).length = 8 * bs.length := by
  induction bs with
  | nil => rfl
  | cons b bs ih =>
    have e : bits (b :: bs) = byteBits b ++ bits bs := by simp [bits]
    rw [e, List.length_append, byteBits_length, ih]; simp; omega

theorem bits_append (a b : Bytes) : bits (a ++ b) = bits a ++ bits b := by simp [bits]

theorem crc_append (c : BitVec 32) (a b : Bytes) : CrcSpec.crc c (a ++ b) = CrcSpec.crc (CrcSpec.crc c a) b := by
  simp [CrcSpec.crc, bits_append]

theorem crc_nil (c : BitVec 32) : CrcSpec.crc c [] = c := rfl

theorem insn8 (c : BitVec 32) (b : UInt8) : insn 8 c b.toNat = CrcSpec.crc c [b] := by
  rw [insn_eq, CrcSpec.crc]
  simp [bits, byteBits]

theorem insn64 (c : BitVec 32) (bs : Bytes) (h : bs.length = 8) : insn 64 c (leVal bs) = CrcSpec.crc c bs := by
  rw [insn_eq, CrcSpec.crc, ← bits_leVal bs, h]

theorem hw_byte_eq (c : BitVec 32) (bs : Bytes) : crc32_hw_byte c bs = CrcSpec.crc c bs := by
  induction bs generalizing c with
  | nil => rfl
  | cons b bs ih =>
    have := crc_append c [b] bs
    simp only [List.singleton_append] at this
    rw [this, ← ih, ← insn8]; rfl

theorem hw_loop_eq (n : Nat) (c : BitVec 32) (bs : Bytes) (h : 8 * n ≤ bs.length) :
    hw_loop n c bs = CrcSpec.crc c bs := by
  induction n generalizing c bs with
  | zero => exact hw_byte_eq c bs
  | succ n ih =>
    have h1 : (bs.take 8).length = 8 := by simp; omega
    rw [hw_loop, ih _ _ (by simp; omega), insn64 _ _ h1, ← crc_append, List.take_append_drop]

theorem hw_eq (c : BitVec 32) (bs : Bytes) : crc32_hw c bs = CrcSpec.crc c bs :=
  hw_loop_eq _ c bs (by omega)

theorem num_bits (n x : Nat) (h : x < 2 ^ n) : num ((List.range n).map fun i => x.testBit i) = x := by
  induction n generalizing x with
  | zero => simp [num]; omega
  | succ n ih =>
    rw [List.range_succ_eq_map, List.map_cons, List.map_map, num]
    have hp : x / 2 < 2 ^ n := by rw [Nat.pow_succ] at h; omega
    have e : ((fun i => x.testBit i) ∘ Nat.succ) = fun i => (x / 2).testBit i := by
      funext i; simp [Function.comp, Nat.testBit_succ]
    rw [e, ih _ hp]
    have : (x.testBit 0).toNat = x % 2 := by
      rw [Nat.testBit_zero]
      rcases Nat.mod_two_eq_zero_or_one x with h | h <;> simp [h]
    omega

theorem crc_word (c : BitVec 32) (bs : Bytes) (h : bs.length ≤ 4) :
    CrcSpec.crc c bs = sh (8 * bs.length) (c ^^^ BitVec.ofNat 32 (leVal bs)) := by
  have hl := bits_length bs
  rw [CrcSpec.crc, feed _ _ (by omega), hl]
  congr 3
  rw [← bits_leVal]
  apply num_bits
  have := leVal_lt bs
  rwa [show (256 : Nat) = 2 ^ 8 from rfl, ← Nat.pow_mul] at this

theorem split8 (x : BitVec 32) : x = (x.setWidth 8).setWidth 32 ^^^ ((x >>> 8) <<< 8) := by
  apply BitVec.eq_of_getLsbD_eq
  intro i hi
  simp only [BitVec.getLsbD_xor, BitVec.getLsbD_setWidth, BitVec.getLsbD_shiftLeft, BitVec.getLsbD_ushiftRight]
  by_cases h : i < 8
  · simp [h, hi]
  · have : 8 + (i - 8) = i := by omega
    simp [h, hi, this]

theorem sh_shl (k : Nat) (y : Nat) (h : 2 ^ k * y < 4294967296) :
    sh k (BitVec.ofNat 32 (2 ^ k * y)) = BitVec.ofNat 32 y := by
  induction k with
  | zero => simp [sh]
  | succ k ih =>
    rw [Nat.pow_succ] at h ⊢
    have e : 2 ^ k * 2 * y = 2 * (2 ^ k * y) := by rw [Nat.mul_comm (2 ^ k) 2, Nat.mul_assoc]
    rw [e] at h ⊢
    rw [sh, shift_double h]
    exact ih (by omega)

theorem sh8_up (x : BitVec 32) : sh 8 ((x >>> 8) <<< 8) = x >>> 8 := by
  have hx := x.isLt
  have h1 : ((x >>> 8) <<< 8) = BitVec.ofNat 32 (2 ^ 8 * (x.toNat / 256)) := by
    apply BitVec.eq_of_toNat_eq
    simp only [BitVec.toNat_shiftLeft, BitVec.toNat_ushiftRight, BitVec.toNat_ofNat, Nat.shiftRight_eq_div_pow,
      Nat.shiftLeft_eq]
    congr 1
    exact Nat.mul_comm ..
  rw [h1, sh_shl 8 _ (by omega)]
  apply BitVec.eq_of_toNat_eq
  simp only [BitVec.toNat_ushiftRight, BitVec.toNat_ofNat, Nat.shiftRight_eq_div_pow]
  omega

theorem sh_split (m : Nat) (x : BitVec 32) :
    sh (m + 8) x = sh (m + 8) ((x.setWidth 8).setWidth 32) ^^^ sh m (x >>> 8) := by
  conv => lhs; rw [split8 x]
  rw [sh_xor, sh_add m 8 (_ <<< _), sh8_up]

theorem t32 : ∀ i : BitVec 8, o32.at i = sh 8 (i.setWidth 32) := by decide +kernel
theorem t40 : ∀ i : BitVec 8, o40.at i = sh 8 (o32.at i) := by decide +kernel
theorem t48 : ∀ i : BitVec 8, o48.at i = sh 8 (o40.at i) := by decide +kernel
theorem t56 : ∀ i : BitVec 8, o56.at i = sh 8 (o48.at i) := by decide +kernel
theorem t64 : ∀ i : BitVec 8, o64.at i = sh 8 (o56.at i) := by decide +kernel
theorem t72 : ∀ i : BitVec 8, o72.at i = sh 8 (o64.at i) := by decide +kernel
theorem t80 : ∀ i : BitVec 8, o80.at i = sh 8 (o72.at i) := by decide +kernel
theorem t88 : ∀ i : BitVec 8, o88.at i = sh 8 (o80.at i) := by decide +kernel

theorem u40 (i : BitVec 8) : o40.at i = sh 16 (i.setWidth 32) := by rw [t40, t32, ← sh_add]
theorem u48 (i : BitVec 8) : o48.at i = sh 24 (i.setWidth 32) := by rw [t48, u40, ← sh_add]
theorem u56 (i : BitVec 8) : o56.at i = sh 32 (i.setWidth 32) := by rw [t56, u48, ← sh_add]
theorem u64 (i : BitVec 8) : o64.at i = sh 40 (i.setWidth 32) := by rw [t64, u56, ← sh_add]
theorem u72 (i : BitVec 8) : o72.at i = sh 48 (i.setWidth 32) := by rw [t72, u64, ← sh_add]
theorem u80 (i : BitVec 8) : o80.at i = sh 56 (i.setWidth 32) := by rw [t80, u72, ← sh_add]
theorem u88 (i : BitVec 8) : o88.at i = sh 64 (i.setWidth 32) := by rw [t88, u80, ← sh_add]

theorem tableStep_eq (c : BitVec 32) (b : UInt8) : tableStep c b = CrcSpec.crc c [b] := by
  rw [crc_word c [b] (by simp), tableStep, t32]
  have e : leVal [b] = b.toNat := by simp [leVal]
  rw [e]
  have := sh_split 0 (c ^^^ BitVec.ofNat 32 b.toNat)
  simp only [Nat.zero_add, sh] at this
  show _ = sh 8 _
  simp only [sh] at this ⊢
  rw [this]
  congr 1
  rw [BitVec.ushiftRight_xor_distrib]
  have h0 : BitVec.ofNat 32 b.toNat >>> 8 = 0#32 := by
    apply BitVec.eq_of_toNat_eq
    have := b.toNat_lt
    simp only [BitVec.toNat_ushiftRight, BitVec.toNat_ofNat, Nat.shiftRight_eq_div_pow]
    omega
  rw [h0, BitVec.xor_zero]

theorem fold_tableStep (c : BitVec 32) (bs : Bytes) : bs.foldl tableStep c = CrcSpec.crc c bs := by
  rw [← hw_byte_eq, crc32_hw_byte]
  congr 1
  funext c b
  rw [tableStep_eq, insn8]

theorem shr_shr (x : BitVec 32) (a b : Nat) : (x >>> a) >>> b = x >>> (a + b) := by
  rw [BitVec.shiftRight_add]

theorem sh_split4 (m : Nat) (x : BitVec 32) :
    sh (m + 32) x = sh (m + 32) ((x.setWidth 8).setWidth 32) ^^^ sh (m + 24) (((x >>> 8).setWidth 8).setWidth 32)
      ^^^ sh (m + 16) (((x >>> 16).setWidth 8).setWidth 32) ^^^ sh (m + 8) (((x >>> 24).setWidth 8).setWidth 32) := by
  rw [sh_split (m + 24) x, sh_split (m + 16) (x >>> 8), sh_split (m + 8) ((x >>> 8) >>> 8),
    sh_split m (((x >>> 8) >>> 8) >>> 8), shr_shr, shr_shr, shr_shr]
  have h0 : x >>> (8 + 8 + 8 + 8) = 0#32 := by
    apply BitVec.eq_of_toNat_eq
    have := x.isLt
    simp only [BitVec.toNat_ushiftRight, BitVec.toNat_ofNat, Nat.shiftRight_eq_div_pow]
    omega
  rw [h0, sh_zero, BitVec.xor_zero]
  simp only [← BitVec.xor_assoc]

theorem slice8_eq (c : BitVec 32) (bs : Bytes) (h : bs.length = 8) : slice8 c bs = CrcSpec.crc c bs := by
  have h1 : (bs.take 4).length = 4 := by simp; omega
  have h2 : ((bs.drop 4).take 4).length = 4 := by simp; omega
  have e : bs = bs.take 4 ++ (bs.drop 4).take 4 := by
    conv => lhs; rw [← List.take_append_drop 4 bs]
    congr 1
    rw [List.take_of_length_le (by simp; omega)]
  have hr : CrcSpec.crc c bs = CrcSpec.crc (CrcSpec.crc c (bs.take 4)) ((bs.drop 4).take 4) := by
    rw [← crc_append, ← e]
  rw [hr, crc_word _ _ (by omega), crc_word _ _ (by omega), h1, h2, sh_xor, ← sh_add]
  unfold slice8
  dsimp only
  generalize c ^^^ BitVec.ofNat 32 (leVal (bs.take 4)) = x
  generalize BitVec.ofNat 32 (leVal ((bs.drop 4).take 4)) = w
  rw [u88, u80, u72, u64, u56, u48, u40, t32, shr_shr, shr_shr]
  have e1 := sh_split4 32 x
  have e2 := sh_split4 0 w
  simp only [Nat.zero_add] at e2
  show _ = sh (32 + 32) x ^^^ sh 32 w
  rw [e1, e2]
  simp only [BitVec.xor_assoc]

theorem sw_loop_eq (n : Nat) (c : BitVec 32) (bs : Bytes) (h : 8 * n ≤ bs.length) :
    sw_loop n c bs = CrcSpec.crc c bs := by
  induction n generalizing c bs with
  | zero => exact fold_tableStep c bs
  | succ n ih =>
    have h1 : (bs.take 8).length = 8 := by simp; omega
    rw [sw_loop, ih _ _ (by simp; omega), slice8_eq _ _ h1, ← crc_append, List.take_append_drop]

theorem sw_eq (addr : Nat) (c : BitVec 32) (bs : Bytes) : crc32_sw addr c bs = CrcSpec.crc c bs := by
  unfold crc32_sw
  dsimp only
  rw [sw_loop_eq _ _ _ (by omega), fold_tableStep, ← crc_append, List.take_append_drop]

theorem crc32_eq (hw : Bool) (addr : Nat) (c : BitVec 32) (bs : Bytes) : crc32 hw addr c bs = CrcSpec.crc c bs := by
  cases hw with
  | true => exact hw_eq c bs
  | false => exact sw_eq addr c bs

/-! ### Error detection -/

theorem xor_eq_zero {a b : BitVec 32} (h : a ^^^ b = 0#32) : a = b := by
  have : a ^^^ b ^^^ b = 0#32 ^^^ b := by rw [h]
  rw [BitVec.xor_assoc, BitVec.xor_self, BitVec.xor_zero, BitVec.zero_xor] at this
  exact this

theorem shift_ker {x : BitVec 32} (h : shift x = 0#32) : x = 0#32 := by
  unfold shift at h
  split at h
  · exfalso
    have h31 := congrArg (fun v => v.getLsbD 31) h
    simp [BitVec.getLsbD_xor, BitVec.getLsbD_ushiftRight] at h31
  · rename_i h0
    apply BitVec.eq_of_toNat_eq
    have h1 := congrArg BitVec.toNat h
    simp only [BitVec.toNat_ushiftRight, Nat.shiftRight_eq_div_pow, BitVec.toNat_ofNat] at h1
    have h2 : x.toNat % 2 = 0 := by
      have h3 : x.toNat.testBit 0 = false := by simpa [BitVec.getLsbD] using h0
      simp at h3; omega
    simp only [BitVec.toNat_ofNat]
    omega

theorem shift_inj {a b : BitVec 32} (h : shift a = shift b) : a = b := by
  apply xor_eq_zero
  apply shift_ker
  rw [shift_xor, h, BitVec.xor_self]

theorem sh_inj {n : Nat} {a b : BitVec 32} (h : sh n a = sh n b) : a = b := by
  induction n generalizing a b with
  | zero => exact h
  | succ n ih => exact shift_inj (ih h)

theorem xor_cancel_right {a b c : BitVec 32} (h : a ^^^ c = b ^^^ c) : a = b := by
  have := congrArg (· ^^^ c) h
  simpa [BitVec.xor_assoc] using this

theorem xor_cancel_left {a b c : BitVec 32} (h : c ^^^ a = c ^^^ b) : a = b := by
  apply xor_cancel_right (c := c)
  rw [BitVec.xor_comm a, BitVec.xor_comm b]; exact h

theorem fold_inj (bs : List Bool) {a b : BitVec 32} (h : bs.foldl divide a = bs.foldl divide b) : a = b := by
  induction bs generalizing a b with
  | nil => exact h
  | cons x bs ih =>
    have := ih h
    rw [divide_eq, divide_eq] at this
    exact xor_cancel_right (shift_inj this)

theorem feed_inj {xs ys : List Bool} {c : BitVec 32} (hl : xs.length = ys.length) (h32 : xs.length ≤ 32)
    (h : xs.foldl divide c = ys.foldl divide c) : xs = ys := by
  rw [feed _ _ h32, feed _ _ (by omega), hl] at h
  have h1 := xor_cancel_left (sh_inj h)
  have h2 := congrArg BitVec.toNat h1
  simp only [BitVec.toNat_ofNat] at h2
  have hx := num_lt xs
  have hy := num_lt ys
  have hp : 2 ^ xs.length ≤ 2 ^ 32 := Nat.pow_le_pow_right (by omega) h32
  rw [← hl] at hy
  rw [Nat.mod_eq_of_lt (by omega), Nat.mod_eq_of_lt (by omega)] at h2
  exact num_inj hl h2

/-- A burst of at most 32 bits always changes the checksum. -/
theorem burst_detected {x y : Bytes} (r : BitVec 32) (h : Burst x y) : CrcSpec.crc r x ≠ CrcSpec.crc r y := by
  obtain ⟨pre, mid, mid', post, hx, hy, hl, h32, hne⟩ := h
  intro he
  unfold CrcSpec.crc at he
  rw [hx, hy] at he
  simp only [List.foldl_append] at he
  exact hne (feed_inj hl h32 (fold_inj post he))

end Verif.Crc
