import Verif.Spec.C57
import Verif.Props.C45
import Verif.Props.C28

/-! C57: a cloud request is signed and addressed for its object. -/
namespace Verif.C57
open S3

theorem chars_letter : ∀ n < 64, char n = .ok (letter n) := by decide +kernel

theorem put6_ok {room : Nat} {out : List Nat} (i n : Nat) (hi : i % 64 = n) (h : out.length < room) :
    put6 room out i = .ok (out ++ [letter n]) := by
  unfold put6
  rw [show (63 : Nat) = 2 ^ 6 - 1 from rfl, Nat.and_two_pow_sub_one_eq_mod, show (2 : Nat) ^ 6 = 64 from rfl, hi,
    chars_letter n (by omega), Res.bind_ok, put, if_pos h]

theorem or_shift (v d : Nat) (h : d < 256) : (v <<< 8) ||| d = v * 256 + d := by
  rw [← Nat.shiftLeft_add_eq_or_of_lt (by simpa using h), Nat.shiftLeft_eq]

/-- One round of the loop over three bytes. -/
theorem loop3 {room : Nat} (k a b c : Nat) (out l : List Nat) (ha : a < 256) (hb : b < 256) (hc : c < 256)
    (h : out.length + 4 ≤ room) :
    loop room (3 * k) 0 out (a :: b :: c :: l) =
      loop room (3 * (k + 1)) 0 (out ++ [letter (a / 4), letter (a % 4 * 16 + b / 16), letter (b % 16 * 4 + c / 64), letter (c % 64)]) l := by
  have e0 : ¬ 3 * k % 3 = 2 := by omega
  have e1 : ¬ (3 * k + 1) % 3 = 2 := by omega
  have e2 : (3 * k + 1 + 1) % 3 = 2 := by omega
  simp only [loop, if_neg e0, if_neg e1, if_pos e2]
  rw [or_shift 0 a ha, or_shift _ b hb, or_shift _ c hc]
  have hv : ((0 * 256 + a) * 256 + b) * 256 + c = a * 65536 + b * 256 + c := by omega
  rw [hv]
  rw [put6_ok _ (a / 4) (by rw [Nat.shiftRight_eq_div_pow]; omega) (by omega), Res.bind_ok]
  rw [put6_ok _ (a % 4 * 16 + b / 16) (by rw [Nat.shiftRight_eq_div_pow]; omega) (by simp; omega), Res.bind_ok]
  rw [put6_ok _ (b % 16 * 4 + c / 64) (by rw [Nat.shiftRight_eq_div_pow]; omega) (by simp; omega), Res.bind_ok]
  rw [put6_ok _ (c % 64) (by omega) (by simp; omega), Res.bind_ok]
  simp only [List.append_assoc, List.cons_append, List.nil_append]
  rfl

/-- Whole groups of three, then two bytes. -/
theorem loop_groups {room : Nat} : ∀ (n k : Nat) (out l : List Nat), (∀ b ∈ l, b < 256) → l.length = 3 * n + 2 →
    out.length + 4 * n ≤ room →
    ∃ v x y pre, loop room (3 * k) 0 out l = .ok (v, out ++ pre) ∧ pre.length = 4 * n ∧ v = x * 256 + y ∧ x < 256 ∧ y < 256 ∧
      base64 l = pre ++ [letter (x / 4), letter (x % 4 * 16 + y / 16), letter (y % 16 * 4), 61]
  | 0, k, out, l, hb, hl, _ => by
    obtain ⟨a, b, rfl⟩ : ∃ a b, l = [a, b] := by
      match l, hl with
      | [a, b], _ => exact ⟨a, b, rfl⟩
    have ha : a < 256 := hb a (by simp)
    have hb' : b < 256 := hb b (by simp)
    have e0 : ¬ 3 * k % 3 = 2 := by omega
    have e1 : ¬ (3 * k + 1) % 3 = 2 := by omega
    refine ⟨a * 256 + b, a, b, [], ?_, rfl, rfl, ha, hb', rfl⟩
    simp only [loop, if_neg e0, if_neg e1]
    rw [or_shift 0 a ha, or_shift _ b hb']
    simp
  | n + 1, k, out, l, hb, hl, hr => by
    obtain ⟨a, b, c, l', rfl⟩ : ∃ a b c l', l = a :: b :: c :: l' := by
      match l, hl with
      | a :: b :: c :: l', _ => exact ⟨a, b, c, l', rfl⟩
    simp only [List.length_cons] at hl
    rw [loop3 k a b c out l' (hb a (by simp)) (hb b (by simp)) (hb c (by simp)) (by omega)]
    obtain ⟨v, x, y, pre, e, e1, e2, e3, e4, e5⟩ := loop_groups (room := room) n (k + 1)
      (out ++ [letter (a / 4), letter (a % 4 * 16 + b / 16), letter (b % 16 * 4 + c / 64), letter (c % 64)]) l'
      (fun z hz => hb z (by simp [hz])) (by omega) (by simp; omega)
    refine ⟨v, x, y, [letter (a / 4), letter (a % 4 * 16 + b / 16), letter (b % 16 * 4 + c / 64), letter (c % 64)] ++ pre,
      by rw [e, List.append_assoc], by simp [e1]; omega, e2, e3, e4, ?_⟩
    rw [base64, e5, List.append_assoc]

/-- What the encoder writes for a digest, up to the final NUL. -/
theorem encode_to (room : Nat) (digest : List Nat) (hl : digest.length = 20) (hb : ∀ b ∈ digest, b < 256) (hr : 28 ≤ room) :
    (base64 digest).length = 28 ∧ encode room digest = put room (base64 digest) 0 := by
  obtain ⟨v, x, y, pre, e, e1, e2, e3, e4, e5⟩ := loop_groups (room := room) 6 0 [] digest hb (by omega) (by simp; omega)
  refine ⟨by rw [e5]; simp [e1], ?_⟩
  unfold encode
  have e' : loop room 0 0 [] digest = .ok (v, pre) := by simpa using e
  rw [e', Res.bind_ok]
  simp only
  rw [put6_ok _ (x / 4) (by rw [Nat.shiftRight_eq_div_pow]; omega) (by omega), Res.bind_ok]
  rw [put6_ok _ (x % 4 * 16 + y / 16) (by rw [Nat.shiftRight_eq_div_pow]; omega) (by simp; omega), Res.bind_ok]
  rw [put6_ok _ (y % 16 * 4) (by rw [Nat.shiftLeft_eq]; omega) (by simp; omega), Res.bind_ok]
  rw [put, if_pos (by simp; omega), Res.bind_ok, e5]
  simp only [List.append_assoc, List.cons_append, List.nil_append]

/-- The signature text is right: with room for one more byte, the encoder writes
the base 64 form of every digest and ends the string.  Missing for Full: there is
no such room, see C57_false_overflow. -/
theorem C57_signature_partial (digest : List Nat) (hl : digest.length = 20) (hb : ∀ b ∈ digest, b < 256) :
    encode 29 digest = .ok (base64 digest ++ [0]) := by
  obtain ⟨h1, h2⟩ := encode_to 29 digest hl hb (by omega)
  rw [h2, put, if_pos (by omega)]

/-- False of the code: every request writes past the array of 28 bytes. -/
theorem C57_false_overflow (hmac : List Nat → List Nat → List Nat) (r : Req) (h : Digest hmac) : ∃ what, prepare hmac r = .ub what := by
  obtain ⟨h1, h2⟩ := encode_to 28 (hmac r.password (header r)) (h _ _).1 (h _ _).2 (by omega)
  refine ⟨"s3_request_encode_base64: write past the array", ?_⟩
  unfold prepare
  rw [h2, put, if_neg (by omega)]
  rfl

/-- The same request with an array of 29 bytes. -/
def prepare29 (hmac : List Nat → List Nat → List Nat) (r : Req) : Res Prepared :=
  (encode 29 (hmac r.password (header r))).bind fun digest_base64 =>
  .ok { authorization := snprintf 256 ([65, 87, 83, 32] ++ r.login ++ [58] ++ cstring digest_base64)
        url := snprintf 1024 (r.url ++ object r) }

theorem letter_ne (n : Nat) : letter n ≠ 0 := by
  unfold letter
  repeat' split
  all_goals omega

theorem base64_ne : ∀ l, ∀ c ∈ base64 l, c ≠ 0
  | [] => by simp [base64]
  | [a] => by simp [base64, letter_ne]
  | [a, b] => by simp [base64, letter_ne]
  | a :: b :: c :: l => by
    intro x hx
    rw [base64, List.mem_append] at hx
    rcases hx with hx | hx
    · simp only [List.mem_cons, List.not_mem_nil, or_false] at hx
      rcases hx with rfl | rfl | rfl | rfl <;> exact letter_ne _
    · exact base64_ne l x hx

theorem cstring_append {l : List Nat} (h : ∀ c ∈ l, c ≠ 0) : cstring (l ++ [0]) = l := by
  unfold cstring
  induction l with
  | nil => simp
  | cons a l ih =>
    rw [List.cons_append, List.takeWhile_cons_of_pos (by simpa using h a (by simp)), ih (fun c hc => h c (by simp [hc]))]

theorem object_path (r : Req) : object r = path r.uuid r.id := rfl

theorem decPad_length : ∀ w n, (FileName.decPad w n).length = w
  | 0, _ => rfl
  | w + 1, n => by simp [FileName.decPad, decPad_length w n]

theorem path_length (u : Uuid) (id : Option Nat) : (path u id).length ≤ 58 := by
  unfold path
  cases id <;> simp [C45.text_length, decPad_length]

/-- Partial: with that byte, a request with a login of at most 222 characters and
an url of at most 965 is signed and addressed for its object. -/
theorem C57_request_partial (hmac : List Nat → List Nat → List Nat) (r : Req) (h : Digest hmac) (hl : r.login.length ≤ 222)
    (hu : r.url.length ≤ 965) :
    prepare29 hmac r = .ok
      { authorization := [65, 87, 83, 32] ++ r.login ++ [58] ++ base64 (hmac r.password
          (r.method ++ [10, 10] ++ r.content_type ++ [10] ++ r.date ++ [10] ++ path r.uuid r.id))
        url := r.url ++ path r.uuid r.id } := by
  have hd := h r.password (header r)
  obtain ⟨h1, _⟩ := encode_to 29 _ hd.1 hd.2 (by omega)
  unfold prepare29
  rw [C57_signature_partial _ hd.1 hd.2, Res.bind_ok]
  rw [cstring_append (base64_ne _)]
  unfold snprintf
  have e1 : ([65, 87, 83, 32] ++ r.login ++ [58] ++ base64 (hmac r.password (header r))).length ≤ 256 - 1 := by
    simp only [List.length_append, List.length_cons, List.length_nil]
    omega
  have e2 : (r.url ++ object r).length ≤ 1024 - 1 := by
    have := path_length r.uuid r.id
    rw [object_path, List.length_append]
    omega
  rw [List.take_of_length_le e1, List.take_of_length_le e2]
  rfl

/-- Different objects have different paths. -/
theorem C57_paths_distinct (u v : Uuid) (a b : Option Nat) (hu : C45.Legal u) (hv : C45.Legal v)
    (ha : ∀ n ∈ a, n < 18446744073709551616) (hb : ∀ n ∈ b, n < 18446744073709551616) (h : path u a = path v b) : u = v ∧ a = b := by
  unfold path at h
  simp only [List.append_assoc, List.cons_append, List.nil_append, List.cons.injEq, true_and] at h
  obtain ⟨h1, h2⟩ := List.append_inj h (by rw [C45.text_length, C45.text_length])
  refine ⟨C45.C45_text_identifies u v hu hv h1, ?_⟩
  cases a with
  | none => cases b with
    | none => rfl
    | some y => simp at h2
  | some x => cases b with
    | none => simp at h2
    | some y =>
      simp only [List.cons_append, List.nil_append, List.cons.injEq, true_and] at h2
      rw [(C28.C28_names_distinct x y .id .id (ha x rfl) (hb y rfl) h2).1]

/-- False of the code: with an url of 1023 characters every object of the cloud
has the same address. -/
theorem C57_false_address (r : Req) (h : r.url.length = 1023) : snprintf 1024 (r.url ++ object r) = r.url := by
  unfold snprintf
  rw [List.take_append_of_le_length (by omega), List.take_of_length_le (by omega)]

/-- A request for partition 7. -/
def sample : Req :=
  { url := [104, 116, 116, 112], login := [117], password := [112], method := [71, 69, 84], content_type := []
    date := [48], uuid := ⟨1, 2⟩, id := some 7 }

theorem C57_false : ¬ Full := by
  intro h
  have hd : Digest fun _ _ => List.replicate 20 255 := by
    intro k t
    simp
  have h1 := h _ sample hd
  obtain ⟨w, h2⟩ := C57_false_overflow _ sample hd
  rw [Right, h2] at h1
  cases h1

/-- The hypotheses are met, and the text is that of RFC 4648 (test vectors of
section 10, and a digest of 20 bytes). -/
example : base64 [102, 111, 111, 98, 97, 114] = [90, 109, 57, 118, 89, 109, 70, 121] ∧
    base64 [102, 111, 111, 98, 97] = [90, 109, 57, 118, 89, 109, 69, 61] ∧
    encode 29 (List.replicate 20 255) = .ok (base64 (List.replicate 20 255) ++ [0]) := by decide +kernel

example : sample.login.length ≤ 222 ∧ sample.url.length ≤ 965 ∧ C45.Legal sample.uuid := by
  unfold C45.Legal; decide

end Verif.C57
