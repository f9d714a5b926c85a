import Verif.Spec.C77
import Verif.Proofs.C67

/-! Packing and unpacking (used by C77). -/
namespace Verif.C77
open Buf Pack
open C67 (Inv reserve_ok str_ok w32)

theorem Used.inv {b : Buf} (h : Used b) : Inv (buf_reset b) [] :=
  ⟨h.fin, rfl, rfl, h.small⟩

theorem reserve_inv {a : Alloc} {b b' : Buf} {c : Bytes} {size : Int} (h : Inv b c) (hr : buf_reserve a b size = .ok b') :
    Inv b' c ∧ (c.length : Int) + size ≤ b'.fin := by
  have hle := h.le
  have hsm := h.small
  have hpos := h.pos
  unfold buf_reserve buf_size_unused buf_size buf_capacity at hr
  rw [w32 (by omega) (by omega), w32 (by omega) (by omega), w32 (by omega) (by omega)] at hr
  split at hr
  · cases hr; exact ⟨h, by omega⟩
  · rename_i hge
    obtain ⟨i, hi, hr⟩ := Res.bind_eq_ok.1 hr
    obtain ⟨j, hj, hr⟩ := Res.bind_eq_ok.1 hr
    unfold int at hi hj
    split at hi <;> cases hi
    split at hj <;> cases hj
    dsimp only at hr
    revert hr
    generalize hg : (if (b.position : Int) + size > (b.fin : Int) * 2 then (b.position : Int) + size else (b.fin : Int) * 2) = g
    intro hr
    have hg1 : (c.length : Int) + size ≤ g := by rw [← hg]; split <;> omega
    have hg2 : g < 2147483648 := by rw [← hg]; split <;> omega
    have hg3 : (b.fin : Int) ≤ g := by rw [← hg]; split <;> omega
    have hw : wrapU64 g = g.toNat := by unfold wrapU64; omega
    unfold mn_realloc at hr
    dsimp only at hr
    rw [hw] at hr
    cases hc : a.can g.toNat with
    | false => simp [hc] at hr
    | true =>
      simp only [hc, if_true, Res.bind_ok, Res.ok.injEq] at hr
      subst hr
      refine ⟨⟨?_, hpos, ?_, ?_⟩, ?_⟩
      · simp only [List.length_append, List.length_take, List.length_map, List.length_range]
        have := h.fin
        omega
      · dsimp only
        have h1 : List.take g.toNat b.block = b.block := List.take_of_length_le (by have := h.fin; omega)
        rw [h1, List.take_append_of_le_length (by have := h.fin; omega), h.take]
      · dsimp only; omega
      · dsimp only; omega

/-- Writing at the end. -/
theorem put_adv {b : Buf} {c d : Bytes} (h : Inv b c) {f : Buf → Res α} {x : α}
    (hr : ((put b d).bind fun b => (buf_advance b d.length).bind f) = .ok x) :
    ∃ b', Inv b' (c ++ d) ∧ b'.fin = b.fin ∧ f b' = .ok x := by
  obtain ⟨b1, h1, hr⟩ := Res.bind_eq_ok.1 hr
  have hd : c.length + d.length ≤ b.fin := by
    unfold put at h1
    have := h.fin
    have := h.pos
    split at h1
    · omega
    · cases h1
  obtain ⟨b2, e2, e3, _, e5, e6⟩ := C67.put_ok h hd
  rw [h1] at e2
  cases e2
  rw [e5] at hr
  exact ⟨_, e6, e3, hr⟩

/-- Writing at the end when there is space. -/
theorem put_fwd {b : Buf} {c d : Bytes} (h : Inv b c) (hd : c.length + d.length ≤ b.fin) (f : Buf → Res α) :
    ∃ b', Inv b' (c ++ d) ∧ b'.fin = b.fin ∧ ((put b d).bind fun b => (buf_advance b d.length).bind f) = f b' := by
  obtain ⟨b2, e2, e3, _, e5, e6⟩ := C67.put_ok h hd
  exact ⟨_, e6, e3, by rw [e2, Res.bind_ok, e5, Res.bind_ok]⟩

theorem poke_ok {b : Buf} {c d : Bytes} {off : Nat} (h : Inv b c) (hd : off + d.length ≤ c.length) :
    ∃ b', poke b off d = .ok b' ∧ b'.fin = b.fin ∧ Inv b' (c.take off ++ d ++ c.drop (off + d.length)) := by
  have hle := h.le
  have hfin := h.fin
  unfold poke
  rw [if_pos (by omega)]
  refine ⟨_, rfl, rfl, ⟨?_, ?_, ?_, h.small⟩⟩
  · simp only [List.length_append, List.length_take, List.length_drop]; omega
  · have := h.pos
    simp only [List.length_append, List.length_take, List.length_drop]; omega
  · have e : b.block = c ++ b.block.drop c.length := by
      have := List.take_append_drop c.length b.block
      rw [h.take] at this; exact this.symm
    dsimp only
    have e1 : b.block.take off = c.take off := by rw [e, List.take_append_of_le_length (by omega)]
    have e2 : b.block.drop (off + d.length) = c.drop (off + d.length) ++ b.block.drop c.length := by
      conv => lhs; rw [e]
      rw [List.drop_append_of_le_length (by omega)]
    rw [e1, e2, ← List.append_assoc, List.take_append_of_le_length (by simp), List.take_of_length_le (by simp)]

theorem advance_junk {b : Buf} {c : Bytes} {n : Nat} (h : Inv b c) (hn : c.length + n ≤ b.fin) :
    ∃ b' j, buf_advance b n = .ok b' ∧ b'.fin = b.fin ∧ j.length = n ∧ Inv b' (c ++ j) := by
  have hfin := h.fin
  have hpos := h.pos
  unfold buf_advance
  rw [if_pos (by omega)]
  refine ⟨_, (b.block.drop c.length).take n, rfl, rfl, ?_, ⟨hfin, ?_, ?_, h.small⟩⟩
  · simp only [List.length_take, List.length_drop]; omega
  · simp only [List.length_append, List.length_take, List.length_drop]; omega
  · simp only [List.length_append, List.length_take, List.length_drop]
    have e : min n (b.block.length - c.length) = n := by omega
    rw [e]
    have := List.take_add (l := b.block) (i := c.length) (j := n)
    rw [this, h.take]

theorem peek_ok {block : Bytes} {off n : Nat} (h : off + n ≤ block.length) : peek block off n = .ok ((block.drop off).take n) := by
  unfold peek; rw [if_pos h]

/-! AES. -/

theorem mix_length (g : Gcm) (k v : Bytes) : ∀ (x : Bytes) (n : Nat), (g.mix k v n x).length = x.length
  | [], _ => rfl
  | _ :: xs, n => by simp [Gcm.mix, mix_length g k v xs]

theorem mix_append (g : Gcm) (k v : Bytes) : ∀ (x y : Bytes) (n : Nat), g.mix k v n (x ++ y) = g.mix k v n x ++ g.mix k v (n + x.length) y
  | [], y, n => by simp [Gcm.mix]
  | a :: xs, y, n => by
    simp only [List.cons_append, Gcm.mix, mix_append g k v xs y, List.length_cons, List.cons.injEq, true_and]
    rw [show n + (xs.length + 1) = n + 1 + xs.length by omega]

theorem mix_mix (g : Gcm) (k v : Bytes) : ∀ (x : Bytes) (n : Nat), g.mix k v n (g.mix k v n x) = x
  | [], _ => rfl
  | a :: xs, n => by
    simp only [Gcm.mix, mix_mix g k v xs, List.cons.injEq, and_true]
    rw [UInt8.xor_assoc, UInt8.xor_self, UInt8.xor_zero]

theorem piece_le {argv : List Bytes} {x : Bytes} (h : x ∈ argv) : x.length ≤ argv.flatten.length := by
  induction argv with
  | nil => cases h
  | cons y ys ih =>
    rw [List.flatten_cons, List.length_append]
    rcases List.mem_cons.1 h with rfl | h
    · omega
    · have := ih h; omega

theorem encrypt_loop_ok (g : Gcm) (argv : List Bytes) : ∀ (c : Cipher) (b : Buf) (w : Bytes) (c' : Cipher) (b' : Buf),
    (∀ x ∈ argv, x.length < 2147483648) → Inv b w → encrypt_loop g c b argv = .ok (c', b') →
    c' = { c with done := c.done ++ g.mix c.key c.iv c.done.length argv.flatten } ∧
    Inv b' (w ++ g.mix c.key c.iv c.done.length argv.flatten) ∧ b'.fin = b.fin := by
  induction argv with
  | nil =>
    intro c b w c' b' _ h hr
    cases hr
    simp only [List.flatten_nil, Gcm.mix, List.append_nil]
    exact ⟨trivial, h, trivial⟩
  | cons x xs ih =>
    intro c b w c' b' hl h hr
    have hx := hl x (by simp)
    unfold encrypt_loop at hr
    rw [w32 (by omega) (by omega), if_neg (by omega)] at hr
    simp only [Int.toNat_natCast, List.take_length, encrypt_update] at hr
    obtain ⟨b1, h1, h2, hr⟩ := put_adv h hr
    obtain ⟨e1, e2, e3⟩ := ih _ b1 _ c' b' (fun y hy => hl y (by simp [hy])) h1 hr
    dsimp only at e1 e2
    simp only [List.length_append, mix_length] at e1 e2
    simp only [List.flatten_cons, mix_append]
    rw [List.append_assoc] at e1 e2
    exact ⟨e1, e2, e3.trans h2⟩

/-- What is stored for encrypted bytes. -/
def sealed (g : Gcm) (key : Bytes) (r0 r1 : Nat) (x : Bytes) : Bytes :=
  let head := le 8 r0 ++ le 8 r1
  let y := g.mix key (head.take 12) 0 x
  head ++ g.tag key (head.take 12) y ++ y

theorem aes_encrypt_ok {g : Gcm} {a : Alloc} {r0 r1 : Nat} {key : Bytes} {b b' : Buf} {argv : List Bytes} {c : Cipher}
    (h : Inv b []) (hl : argv.flatten.length < 2147483648) (hr : aes_encrypt g a r0 r1 key b argv = .ok (c, b')) :
    key.length = 32 ∧ Inv b' (sealed g key r0 r1 argv.flatten) := by
  unfold aes_encrypt at hr
  split at hr
  · cases hr
  · rename_i hk
    refine ⟨by omega, ?_⟩
    dsimp only at hr
    obtain ⟨b1, hr1, hr⟩ := Res.bind_eq_ok.1 hr
    obtain ⟨h1, -⟩ := reserve_inv h hr1
    have hf1 : 32 ≤ b1.fin := by
      obtain ⟨b2, e2, -⟩ := Res.bind_eq_ok.1 hr
      have hp := h1.pos
      unfold buf_advance at e2
      split at e2
      · simp only [List.length_nil] at hp; omega
      · cases e2
    obtain ⟨b2, j, e2, f2, lj, h2⟩ := advance_junk (n := 32) h1 (by simp only [List.length_nil]; omega)
    rw [e2, Res.bind_ok] at hr
    rw [List.nil_append] at h2
    obtain ⟨b3, e3, f3, h3⟩ := poke_ok (d := le 8 r0 ++ le 8 r1) (off := 0) h2 (by simp [lj])
    rw [e3, Res.bind_ok] at hr
    simp only [List.take_zero, List.nil_append, List.length_append, le_length, Nat.zero_add] at h3
    generalize hhd : le 8 r0 ++ le 8 r1 = hd at h3
    have lhd : hd.length = 16 := by rw [← hhd]; simp
    have l3 : (hd ++ j.drop 16).length = 32 := by simp [lhd, lj]
    have t3 := h3.take
    rw [l3] at t3
    have lb3 : 32 ≤ b3.block.length := by have := h3.le; have := h3.fin; omega
    rw [peek_ok (by omega), Res.bind_ok] at hr
    have e12 : (b3.block.drop 0).take 12 = hd.take 12 := by
      have : (b3.block.take 32).take 12 = (hd ++ j.drop 16).take 12 := by rw [t3]
      rw [List.take_take, List.take_append_of_le_length (by omega)] at this
      simpa using this
    rw [e12] at hr
    obtain ⟨⟨c4, b4⟩, hr4, hr⟩ := Res.bind_eq_ok.1 hr
    obtain ⟨e4, h4, f4⟩ := encrypt_loop_ok g argv _ b3 _ c4 b4 (by
      intro x hx
      have := piece_le hx
      omega) h3 hr4
    dsimp only at hr
    rw [e4] at hr
    simp only [cipher_init, List.nil_append, List.length_nil] at hr h4
    generalize hy : g.mix key (hd.take 12) 0 argv.flatten = y at hr h4
    obtain ⟨b5, e5, _, h5⟩ := poke_ok (d := g.tag key (hd.take 12) y) (off := 16) h4 (by
      simp only [List.length_append, g.tag_length, List.length_drop, lhd, lj]; omega)
    rw [e5, Res.bind_ok] at hr
    cases hr
    have : (List.take 16 (hd ++ List.drop 16 j ++ y) ++ g.tag key (List.take 12 hd) y ++
        List.drop (16 + (g.tag key (List.take 12 hd) y).length) (hd ++ List.drop 16 j ++ y)) =
        hd ++ g.tag key (hd.take 12) y ++ y := by
      have d32 : List.drop 32 (hd ++ List.drop 16 j ++ y) = y := List.drop_left' l3
      have t16 : List.take 16 (hd ++ List.drop 16 j ++ y) = hd := by
        rw [List.append_assoc]; exact List.take_left' lhd
      rw [g.tag_length, d32, t16]
    rw [this] at h5
    simp only [sealed]
    rw [hhd, hy]
    exact h5

/-- The tag is right. -/
def Genuine (g : Gcm) (key d : Bytes) : Prop := (d.drop 16).take 16 = g.tag key (d.take 12) (d.drop 32)

instance (g : Gcm) (key d : Bytes) : Decidable (Genuine g key d) := by unfold Genuine; infer_instance

theorem aes_decrypt_ok (g : Gcm) {a : Alloc} (ha : Plenty a) {key d block : Bytes} {b : Buf} (hk : key.length = 32)
    (h : Inv b []) (hl : 32 ≤ d.length) (hd : d.length ≤ 1073741824) (hb : block.take d.length = d) :
    ∃ c b', Inv b' (g.mix key (d.take 12) 0 (d.drop 32)) ∧
      aes_decrypt g a key b block d.length = if Genuine g key d then .ok (c, b') else .err "aes: decryption failed" := by
  unfold aes_decrypt
  rw [if_neg (by omega)]
  rcases reserve_ok a h d.length (by simpa using hd) with ⟨b1, e1, h1, f1⟩ | ⟨_, n, hn⟩
  · rw [e1, Res.bind_ok]
    have lb : d.length ≤ block.length := by
      have := congrArg List.length hb
      rw [List.length_take] at this; omega
    have i1 : int ((d.length : Int) - 32) = .ok ((d.length - 32 : Nat) : Int) := by
      unfold int; rw [if_pos (by omega)]; congr 1; omega
    rw [i1, Res.bind_ok, peek_ok (by omega), Res.bind_ok, peek_ok (by omega)]
    dsimp only [Res.bind_ok]
    rw [if_neg (by omega), Int.toNat_natCast, peek_ok (by omega)]
    have s (off n : Nat) (hn : off + n ≤ d.length) : (block.drop off).take n = (d.drop off).take n := by
      conv => rhs; rw [← hb]
      rw [List.drop_take, List.take_take]
      congr 1
      omega
    rw [s 0 12 (by omega), s 16 16 (by omega), s 32 (d.length - 32) (by omega)]
    have e32 : (d.drop 32).take (d.length - 32) = d.drop 32 := List.take_of_length_le (by simp)
    rw [e32]
    simp only [Res.bind_ok, decrypt_update, cipher_init, List.length_nil, List.nil_append, List.drop_zero]
    obtain ⟨b2, h2, _, e2⟩ := put_fwd h1 (d := g.mix key (d.take 12) 0 (d.drop 32)) (by
      simp only [mix_length, List.length_nil, List.length_drop] at *; omega)
      (fun b => if some ((d.drop 16).take 16) = some (g.tag key (d.take 12) (d.drop 32))
        then Res.ok (({ key := key, iv := d.take 12, done := d.drop 32, expect := some ((d.drop 16).take 16) } : Cipher), b)
        else Res.err "aes: decryption failed")
    refine ⟨{ key := key, iv := d.take 12, done := d.drop 32, expect := some ((d.drop 16).take 16) }, b2, h2, ?_⟩
    rw [e2]
    simp only [Option.some.injEq, Genuine]
  · rw [ha n] at hn; cases hn

theorem sealed_parts (g : Gcm) (key : Bytes) (r0 r1 : Nat) (x : Bytes) :
    32 ≤ (sealed g key r0 r1 x).length ∧ (sealed g key r0 r1 x).length = 32 + x.length ∧
    Genuine g key (sealed g key r0 r1 x) ∧
    g.mix key ((sealed g key r0 r1 x).take 12) 0 ((sealed g key r0 r1 x).drop 32) = x := by
  unfold sealed Genuine
  dsimp only
  generalize hhd : le 8 r0 ++ le 8 r1 = hd at *
  have lhd : hd.length = 16 := by rw [← hhd]; simp
  generalize hy : g.mix key (hd.take 12) 0 x = y
  have ly : y.length = x.length := by rw [← hy, mix_length]
  have lt := g.tag_length key (hd.take 12) y
  generalize ht : g.tag key (hd.take 12) y = t at *
  have e12 : (hd ++ t ++ y).take 12 = hd.take 12 := by
    rw [List.append_assoc, List.take_append_of_le_length (by omega)]
  have e32 : (hd ++ t ++ y).drop 32 = y := List.drop_left' (by simp [lhd, lt])
  have e16 : ((hd ++ t ++ y).drop 16).take 16 = t := by
    rw [List.append_assoc, List.drop_left' lhd]
    exact List.take_left' lt
  have ln : (hd ++ t ++ y).length = 32 + x.length := by simp [lhd, lt, ly]; omega
  refine ⟨by omega, ln, ?_, ?_⟩
  · rw [e12, e32, e16, ht]
  · rw [e12, e32, ← hy, mix_mix]

/-! Compression. -/

theorem lz4_updates_ok (z : Lz4) (argv : List Bytes) : ∀ (c : z.C) (b : Buf) (w : Bytes) (c' : z.C) (b' : Buf),
    (∀ x ∈ argv, x.length < 2147483648) → Inv b w → lz4_updates z c b argv = .ok (c', b') →
    ∃ y, Inv b' (w ++ y) ∧ y ++ z.last c' = z.body c argv := by
  induction argv with
  | nil =>
    intro c b w c' b' _ h hr
    cases hr
    exact ⟨[], by simpa using h, rfl⟩
  | cons x xs ih =>
    intro c b w c' b' hl h hr
    have hx := hl x (by simp)
    unfold lz4_updates at hr
    rw [w32 (by omega) (by omega), if_neg (by omega)] at hr
    simp only [Int.toNat_natCast, List.take_length] at hr
    obtain ⟨b1, h1, _, hr⟩ := put_adv h hr
    obtain ⟨y, e1, e2⟩ := ih _ b1 _ c' b' (fun y hy => hl y (by simp [hy])) h1 hr
    refine ⟨(z.update c x).2 ++ y, by rw [← List.append_assoc]; exact e1, ?_⟩
    rw [List.append_assoc, e2]; rfl

theorem lz4_compress_ok {z : Lz4} {a : Alloc} {b b' : Buf} {level : Int} {argv : List Bytes} (h : Inv b [])
    (hl : argv.flatten.length ≤ 1073741824) (hr : lz4_compress z a b level argv = .ok b') :
    Inv b' (z.frame (if level > 0 then level else 0) argv) := by
  unfold lz4_compress at hr
  dsimp only at hr
  obtain ⟨b1, hr1, hr⟩ := Res.bind_eq_ok.1 hr
  obtain ⟨h1, -⟩ := reserve_inv h hr1
  obtain ⟨b2, h2, _, hr⟩ := put_adv h1 hr
  obtain ⟨⟨c3, b3⟩, hr3, hr⟩ := Res.bind_eq_ok.1 hr
  obtain ⟨y, h3, e3⟩ := lz4_updates_ok z argv _ b2 _ c3 b3 (by
      intro x hx
      have := piece_le hx
      omega) h2 hr3
  dsimp only at hr
  have hr' : ((put b3 (z.last c3)).bind fun b => (buf_advance b (z.last c3).length).bind .ok) = .ok b' := by
    rw [← hr]
    congr 1
    funext b
    cases buf_advance b (z.last c3).length <;> rfl
  obtain ⟨b4, h4, _, e⟩ := put_adv h3 hr'
  cases e
  rw [List.append_assoc, List.append_assoc, e3, List.nil_append] at h4
  exact h4

theorem zstd_compress_ok {z : Zstd} {debug : Bool} {a : Alloc} {kept kept' : Int} {b b' : Buf} {level : Int} {argv : List Bytes}
    (h : Inv b []) (hl : argv.flatten.length ≤ 1073741824)
    (hf : (z.frame (if level > 0 then level else kept) argv).length ≤ argv.flatten.length)
    (hr : zstd_compress z debug a kept b level argv = .ok (kept', b')) :
    Inv b' (z.frame (if level > 0 then level else kept) argv) := by
  have hsum : (argv.map List.length).sum = argv.flatten.length := by rw [List.length_flatten]
  unfold zstd_compress at hr
  dsimp only at hr
  rw [hsum, w32 (by omega) (by omega)] at hr
  obtain ⟨b1, hr1, hr⟩ := Res.bind_eq_ok.1 hr
  obtain ⟨h1, hf1⟩ := reserve_inv h hr1
  have hp := h1.pos
  have hs := h1.small
  simp only [List.length_nil] at hf1 hp
  have hu : wrapU64 (buf_size_unused b1) = b1.fin := by
    unfold buf_size_unused
    rw [w32 (by omega) (by omega)]
    unfold wrapU64; omega
  revert hf hr
  generalize (if level > 0 then level else kept) = lv
  intro hf hr
  rw [hu, z.stream_fits _ _ _ (by omega)] at hr
  split at hr
  · cases hr
  · obtain ⟨b2, h2, _, hr⟩ := put_adv h1 hr
    cases hr
    simpa using h2

theorem plenty_reserve {a : Alloc} (ha : Plenty a) {b : Buf} {c : Bytes} (h : Inv b c) (size : Nat) (hs : c.length + size ≤ 1073741824) :
    ∃ b', buf_reserve a b size = .ok b' ∧ Inv b' c ∧ c.length + size ≤ b'.fin := by
  rcases reserve_ok a h size hs with h | ⟨_, n, hn⟩
  · exact h
  · rw [ha n] at hn; cases hn

theorem unused {b : Buf} {c : Bytes} (h : Inv b c) : wrapU64 (buf_size_unused b) = b.fin - c.length := by
  have hp := h.pos
  have hs := h.small
  have hle := h.le
  unfold buf_size_unused
  rw [w32 (by omega) (by omega)]
  unfold wrapU64; omega

theorem lz4_decompress_ok {L : Lib} (hL : L.Reads) {a : Alloc} (ha : Plenty a) {b : Buf} (h : Inv b []) (level : Int) (xs : List Bytes)
    (hl : xs.flatten.length ≤ 536870912) (fuel : Nat) :
    ∃ b', lz4_decompress L.lz4 (fuel + 1) false a b (L.lz4.frame level xs) xs.flatten.length = .ok b' ∧ Inv b' xs.flatten := by
  unfold lz4_decompress
  obtain ⟨b1, e1, h1, f1⟩ := plenty_reserve ha h xs.flatten.length (by simp only [List.length_nil]; omega)
  rw [e1, Res.bind_ok]
  simp only [List.length_nil, Nat.zero_add] at f1
  obtain ⟨d, hd⟩ := hL.lz4 level xs (b1.fin - 0) (by omega)
  have hu := unused h1
  simp only [List.length_nil] at hu
  generalize hF : L.lz4.frame level xs = F at *
  cases F with
  | nil =>
    have := L.lz4.first_ne level
    unfold Lz4.frame at hF
    simp [this] at hF
  | cons f fs =>
    unfold lz4_loop
    rw [hu, hd]
    dsimp only
    obtain ⟨b2, h2, _, e2⟩ := put_fwd h1 (d := xs.flatten) (by simp only [List.length_nil]; omega)
      (fun b => lz4_loop L.lz4 fuel d b ((f :: fs).drop (f :: fs).length))
    rw [e2, List.drop_length]
    refine ⟨b2, ?_, by simpa using h2⟩
    cases fuel <;> simp [lz4_loop]

theorem zstd_decompress_ok {L : Lib} (hL : L.Reads) {a : Alloc} (ha : Plenty a) {b : Buf} (h : Inv b []) (level : Int) (xs : List Bytes)
    (hl : xs.flatten.length ≤ 536870912) :
    ∃ b', zstd_decompress L.zstd false a b (L.zstd.frame level xs) xs.flatten.length = .ok b' ∧ Inv b' xs.flatten := by
  unfold zstd_decompress
  obtain ⟨b1, e1, h1, f1⟩ := plenty_reserve ha h xs.flatten.length (by simp only [List.length_nil]; omega)
  rw [e1, Res.bind_ok]
  simp only [List.length_nil, Nat.zero_add] at f1
  have hw : wrapU64 (xs.flatten.length : Int) = xs.flatten.length := wrapU64_id (by omega)
  rw [hw, hL.zstd level xs _ (Nat.le_refl _)]
  dsimp only
  have hfin := h1.fin
  have hpos := h1.pos
  have hsm := h1.small
  simp only [List.length_nil] at hpos
  unfold poke
  rw [if_pos (by omega), Res.bind_ok, if_neg (by simp), if_neg (by omega)]
  unfold buf_advance
  dsimp only
  rw [if_pos (by rw [Int.toNat_natCast]; omega)]
  refine ⟨_, rfl, ⟨?_, ?_, ?_, hsm⟩⟩
  · simp only [List.length_append, List.take_zero, List.length_nil, List.length_drop]; omega
  · simp only [Int.toNat_natCast]; omega
  · simp

/-! Reading. -/

theorem fill_ok {a : Alloc} (ha : Plenty a) {b : Buf} (h : Inv b []) (d : Bytes) (hd : d.length ≤ 1073741824) :
    ∃ b', buf_fill a b (wrapS32 d.length) d = .ok b' ∧ Inv b' d := by
  unfold buf_fill
  rw [w32 (by omega) (by omega)]
  obtain ⟨b1, e1, h1, f1⟩ := plenty_reserve ha h d.length (by simp only [List.length_nil]; omega)
  rw [e1, Res.bind_ok]
  obtain ⟨b2, h2, _, e2⟩ := put_fwd h1 (d := d) f1 .ok
  refine ⟨b2, ?_, by simpa using h2⟩
  rw [← e2]
  congr 1
  funext b
  cases buf_advance b d.length <;> rfl

theorem head_read {b : Buf} {x : Bytes} (h : Inv b x) (h8 : 8 ≤ x.length) :
    getU 4 b.block = .ok (leVal (x.take 4), b.block.drop 4) ∧
    getU 4 (b.block.drop 4) = .ok (leVal ((x.drop 4).take 4), (b.block.drop 4).drop 4) ∧
    b.block.take x.length = x := by
  have hle := h.le
  have hfin := h.fin
  have e4 : b.block.take 4 = x.take 4 := by
    conv => rhs; rw [← h.take]
    rw [List.take_take]; congr 1; omega
  have e8 : (b.block.drop 4).take 4 = (x.drop 4).take 4 := by
    conv => rhs; rw [← h.take]
    rw [List.drop_take, List.take_take]; congr 1; omega
  refine ⟨?_, ?_, h.take⟩
  · unfold getU; rw [if_neg (by omega), e4]
  · unfold getU; rw [if_neg (by rw [List.length_drop]; omega), e8]

/-- What reading gives, from the buffer with the unpacked bytes. -/
theorem reads_of {L : Lib} {fuel : Nat} {a : Alloc} {comp : Option Codec} {key : Option Bytes} {r r' : Reader} {stored : Bytes}
    {size events : Nat} {origin : Buf} {x : Bytes} (hs : size < 2147483648)
    (hu : reader_unpack L fuel false a comp key r stored size = .ok (r', origin)) (h : Inv origin x) (h8 : 8 ≤ x.length)
    (hx : size ≤ x.length) :
    reads L fuel a comp key r stored size events =
      if leVal (x.take 4) ≠ size ∨ leVal ((x.drop 4).take 4) ≠ events then .err "read: region meta data mismatch"
      else .ok (x.take size) := by
  unfold reads reader_execute
  rw [w32 (by omega) (by omega), hu]
  obtain ⟨e1, e2, e3⟩ := head_read h h8
  dsimp only [Res.bind_ok]
  rw [e1, Res.bind_ok]
  dsimp only
  rw [e2, Res.bind_ok]
  dsimp only
  by_cases hc : leVal (x.take 4) ≠ size ∨ leVal ((x.drop 4).take 4) ≠ events
  · rw [if_pos hc, if_pos hc, Res.bind_err]
  · rw [if_neg hc, if_neg hc, Res.bind_ok]
    have e5 : origin.block.take size = x.take size := by
      conv => rhs; rw [← e3]
      rw [List.take_take, Nat.min_eq_left hx]
    rw [← e5]

/-- Reading what is not encrypted or has the right tag goes on with these bytes. -/
def opened (L : Lib) (key : Option Bytes) (stored : Bytes) : Bytes :=
  match key with
  | none => stored
  | some k => L.gcm.mix k (stored.take 12) 0 (stored.drop 32)

/-- The bytes can be opened. -/
def Opens (L : Lib) (key : Option Bytes) (stored : Bytes) : Prop :=
  match key with
  | none => True
  | some k => k.length = 32 ∧ 32 ≤ stored.length ∧ Genuine L.gcm k stored

theorem opened_ok {L : Lib} {a : Alloc} (ha : Plenty a) {comp : Option Codec} {key : Option Bytes} {r : Reader}
    {stored : Bytes} (hr : Ready r) (hs : stored.length ≤ 1073741824) (ho : Opens L key stored) :
    ∃ r' origin, Inv origin (opened L key stored) ∧ r'.buf_decompressed = buf_reset r.buf_decompressed ∧
      ∀ fuel size, reader_unpack L fuel false a comp key r stored size =
        match comp with
        | none => .ok (r', origin)
        | some codec =>
          (buf_str origin).bind fun data =>
          (compression_decompress L fuel false a codec r'.buf_decompressed data size).bind fun b =>
          .ok ({ r' with buf_decompressed := b }, b) := by
  obtain ⟨b, e, hb⟩ := fill_ok ha hr.buf.inv stored hs
  cases key with
  | none =>
    refine ⟨⟨b, buf_reset r.buf_decrypted, buf_reset r.buf_decompressed⟩, b, hb, rfl, ?_⟩
    intro fuel size
    unfold reader_unpack
    rw [e]
    simp only [Res.bind_ok]
    cases comp <;> simp only
  | some k =>
    obtain ⟨hk, hl, hg⟩ := ho
    have hn := (str_ok hb).2
    obtain ⟨c, b', h', e'⟩ := aes_decrypt_ok L.gcm ha hk hr.dec.inv hl hs hb.take
    rw [if_pos hg] at e'
    refine ⟨⟨b, b', buf_reset r.buf_decompressed⟩, b', h', rfl, ?_⟩
    intro fuel size
    unfold reader_unpack
    rw [e]
    dsimp only [Res.bind_ok]
    rw [hn, e']
    simp only [Res.bind_ok]
    cases comp <;> simp only

/-- A wrong tag. -/
theorem tampered {L : Lib} {fuel : Nat} {a : Alloc} (ha : Plenty a) {comp : Option Codec} {k : Bytes} {r : Reader}
    {stored : Bytes} {size events : Nat} (hr : Ready r) (hs : stored.length ≤ 1073741824) (hk : k.length = 32) (hl : 32 ≤ stored.length)
    (hg : ¬ Genuine L.gcm k stored) :
    reads L fuel a comp (some k) r stored size events = .err "aes: decryption failed" := by
  obtain ⟨b, e, hb⟩ := fill_ok ha hr.buf.inv stored hs
  have hn := (str_ok hb).2
  obtain ⟨c, b', h', e'⟩ := aes_decrypt_ok L.gcm ha hk hr.dec.inv hl hs hb.take
  rw [if_neg hg] at e'
  unfold reads reader_execute reader_unpack
  rw [e]
  dsimp only [Res.bind_ok]
  rw [hn, e']
  rfl

/-- A key of another size. -/
theorem bad_key {L : Lib} {fuel : Nat} {a : Alloc} (ha : Plenty a) {comp : Option Codec} {k : Bytes} {r : Reader}
    {stored : Bytes} {size events : Nat} (hr : Ready r) (hs : stored.length ≤ 1073741824) (hk : k.length ≠ 32) :
    reads L fuel a comp (some k) r stored size events = .err "aes: encryption key must be 256bit" := by
  obtain ⟨b, e, hb⟩ := fill_ok ha hr.buf.inv stored hs
  unfold reads reader_execute reader_unpack aes_decrypt
  rw [e]
  dsimp only [Res.bind_ok]
  rw [if_pos hk]
  rfl

/-- What is packed is what is stored. -/
theorem pack_stored {L : Lib} {debug : Bool} {a : Alloc} {comp : Option Codec} {level : Int} {key : Option Bytes} {r0 r1 : Nat}
    {p p' : Packer} {argv : List Bytes} {stored : Bytes} (hc : Used p.compressed) (he : Used p.encrypted)
    (hl : argv.flatten.length ≤ 1073741824)
    (hf : comp = some .zstd →
      (L.zstd.frame (if level > 0 then level else p.kept) argv).length ≤ argv.flatten.length)
    (hr : pack L debug a comp level key r0 r1 p argv = .ok (p', stored)) :
    ∃ y, (match comp with
      | none => y = argv.flatten
      | some .zstd => y = L.zstd.frame (if level > 0 then level else p.kept) argv
      | some .lz4 => y = L.lz4.frame (if level > 0 then level else 0) argv) ∧
      Opens L key stored ∧ opened L key stored = y := by
  have key_part : ∀ (q : Packer) (ys : List Bytes), Inv q.encrypted [] → ys.flatten.length < 2147483648 →
      (match key with
        | none => Res.ok (q, ys.flatten)
        | some key =>
          (aes_encrypt L.gcm a r0 r1 key q.encrypted ys).bind fun (_, b) =>
          (buf_str b).bind fun y => .ok ({ q with encrypted := b }, y)) = .ok (p', stored) →
      Opens L key stored ∧ opened L key stored = ys.flatten := by
    intro q ys hq hys hr
    cases key with
    | none => cases hr; exact ⟨trivial, rfl⟩
    | some k =>
      dsimp only at hr
      obtain ⟨⟨c, b⟩, e1, hr⟩ := Res.bind_eq_ok.1 hr
      obtain ⟨hk, hb⟩ := aes_encrypt_ok hq hys e1
      dsimp only at hr
      rw [(str_ok hb).1, Res.bind_ok] at hr
      cases hr
      obtain ⟨s1, _, s3, s4⟩ := sealed_parts L.gcm k r0 r1 ys.flatten
      exact ⟨⟨hk, s1, s3⟩, s4⟩
  unfold pack at hr
  cases comp with
  | none =>
    dsimp only [Res.bind_ok] at hr
    exact ⟨_, rfl, key_part _ argv he.inv (by omega) hr⟩
  | some codec =>
    dsimp only at hr
    obtain ⟨⟨q, ys⟩, e1, hr⟩ := Res.bind_eq_ok.1 hr
    obtain ⟨q', e2, e1⟩ := Res.bind_eq_ok.1 e1
    have claim : ∃ y, (match codec with
        | .zstd => y = L.zstd.frame (if level > 0 then level else p.kept) argv
        | .lz4 => y = L.lz4.frame (if level > 0 then level else 0) argv) ∧ Inv q'.compressed y ∧
        q'.encrypted = buf_reset p.encrypted := by
      unfold compression_compress at e2
      cases codec with
      | zstd =>
        dsimp only at e2
        obtain ⟨⟨k', b⟩, e3, e2⟩ := Res.bind_eq_ok.1 e2
        cases e2
        exact ⟨_, rfl, zstd_compress_ok hc.inv hl (hf rfl) e3, rfl⟩
      | lz4 =>
        dsimp only at e2
        obtain ⟨b, e3, e2⟩ := Res.bind_eq_ok.1 e2
        cases e2
        exact ⟨_, rfl, lz4_compress_ok hc.inv hl e3, rfl⟩
    obtain ⟨y, hy, hi, hq⟩ := claim
    rw [(str_ok hi).1, Res.bind_ok] at e1
    cases e1
    dsimp only at hr
    have hs := hi.small
    have hle := hi.le
    have := key_part q [y] (hq ▸ he.inv) (by simp only [List.flatten_cons, List.flatten_nil, List.append_nil]; omega) hr
    rw [List.flatten_cons, List.flatten_nil, List.append_nil] at this
    refine ⟨y, ?_, this⟩
    cases codec <;> exact hy

/-- What was stored is what is unpacked from it. -/
theorem decompress_ok {L : Lib} (hL : L.Reads) {a : Alloc} (ha : Plenty a) {codec : Codec} {b : Buf} (h : Inv b []) {lz lv : Int}
    {argv : List Bytes} {y : Bytes} (hl : argv.flatten.length ≤ 536870912)
    (hy : match codec with
      | .zstd => y = L.zstd.frame lz argv
      | .lz4 => y = L.lz4.frame lv argv) (fuel : Nat) :
    ∃ b', compression_decompress L (fuel + 1) false a codec b y argv.flatten.length = .ok b' ∧ Inv b' argv.flatten := by
  cases codec with
  | zstd => subst hy; exact zstd_decompress_ok hL ha h lz argv hl
  | lz4 => subst hy; exact lz4_decompress_ok hL ha h lv argv hl fuel

theorem pack_unpack {L : Lib} (hL : L.Reads) {a a' : Alloc} (ha : Plenty a') {comp : Option Codec} {level : Int} {key : Option Bytes}
    {r0 r1 : Nat} {p p' : Packer} {argv : List Bytes} {stored : Bytes} {r : Reader} (hc : Used p.compressed) (he : Used p.encrypted)
    (hr : Ready r) (hl : argv.flatten.length ≤ 536870912) (hs : stored.length ≤ 1073741824)
    (hf : comp = some .zstd → (L.zstd.frame (if level > 0 then level else p.kept) argv).length ≤ argv.flatten.length)
    (hp : pack L false a comp level key r0 r1 p argv = .ok (p', stored)) (fuel : Nat) :
    ∃ r' origin, reader_unpack L (fuel + 1) false a' comp key r stored argv.flatten.length = .ok (r', origin) ∧
      Inv origin argv.flatten := by
  obtain ⟨y, hy, ho, hoy⟩ := pack_stored hc he (by omega) hf hp
  obtain ⟨r', origin, hi, hu, e⟩ := opened_ok (comp := comp) ha hr hs ho
  rw [e]
  rw [hoy] at hi
  cases comp with
  | none => subst hy; exact ⟨_, _, rfl, hi⟩
  | some codec =>
    dsimp only
    rw [(str_ok hi).1, Res.bind_ok, hu]
    obtain ⟨b', e1, h1⟩ := decompress_ok (codec := codec) hL ha hr.unc.inv hl (y := y)
      (lz := if level > 0 then level else p.kept) (lv := if level > 0 then level else 0) (by cases codec <;> exact hy) fuel
    rw [e1, Res.bind_ok]
    exact ⟨_, _, rfl, h1⟩

theorem write_ok {a : Alloc} (ha : Plenty a) {b : Buf} (h : Inv b []) (d : Bytes) (hd : d.length ≤ 1073741824) :
    ∃ b', buf_write a b d = .ok b' ∧ Inv b' d := by
  unfold buf_write
  rw [w32 (by omega) (by omega)]
  obtain ⟨b1, e1, h1, f1⟩ := plenty_reserve ha h d.length (by simp only [List.length_nil]; omega)
  rw [e1, Res.bind_ok]
  unfold buf_append
  rw [if_neg (by omega), Int.toNat_natCast, List.take_length]
  obtain ⟨b2, h2, _, e2⟩ := put_fwd h1 (d := d) f1 .ok
  refine ⟨b2, ?_, by simpa using h2⟩
  rw [← e2]
  congr 1
  funext b
  cases buf_advance b d.length <;> rfl

theorem init_inv : Inv buf_init [] := ⟨rfl, rfl, rfl, by decide⟩

theorem pack_index {L : Lib} (hL : L.Reads) {a a' : Alloc} (ha : Plenty a') {comp : Option Codec} {level : Int} {key : Option Bytes}
    {r0 r1 : Nat} {p p' : Packer} {argv : List Bytes} {stored : Bytes} {d : Buf} (hc : Used p.compressed) (he : Used p.encrypted)
    (hd : Inv d stored) (hl : argv.flatten.length ≤ 536870912) (hs : stored.length ≤ 1073741824)
    (hf : comp = some .zstd → (L.zstd.frame (if level > 0 then level else p.kept) argv).length ≤ argv.flatten.length)
    (hp : pack L false a comp level key r0 r1 p argv = .ok (p', stored)) (fuel : Nat) :
    ∃ d', index_unpack L (fuel + 1) false a' comp key d argv.flatten.length = .ok d' ∧ Inv d' argv.flatten := by
  obtain ⟨y, hy, ho, hoy⟩ := pack_stored hc he (by omega) hf hp
  have hreset : Inv (buf_reset d) [] := ⟨hd.fin, rfl, rfl, hd.small⟩
  unfold index_unpack
  -- decryption
  have h1 : ∃ o1, (match key with
      | none => Res.ok d
      | some key => (aes_decrypt L.gcm a' key buf_init d.block (buf_size d)).bind fun (_, b) => .ok b) = .ok o1 ∧ Inv o1 y ∧
      (key = none → o1 = d) := by
    cases key with
    | none => exact ⟨d, rfl, by rw [← hoy]; exact hd, fun _ => rfl⟩
    | some k =>
      obtain ⟨hk, hl', hg⟩ := ho
      obtain ⟨c, b', h', e'⟩ := aes_decrypt_ok L.gcm ha hk init_inv hl' hs hd.take
      rw [if_pos hg] at e'
      refine ⟨b', ?_, by rw [← hoy]; exact h', by simp⟩
      dsimp only
      rw [(str_ok hd).2, e']
      rfl
  obtain ⟨o1, e1, i1, k1⟩ := h1
  have h2 : ∃ o2, (match comp with
      | none => Res.ok o1
      | some codec => (buf_str o1).bind fun data => compression_decompress L (fuel + 1) false a' codec buf_init data argv.flatten.length) =
        .ok o2 ∧ Inv o2 argv.flatten ∧ (comp = none → o2 = o1) := by
    cases comp with
    | none => subst hy; exact ⟨o1, rfl, i1, fun _ => rfl⟩
    | some codec =>
      dsimp only
      rw [(str_ok i1).1, Res.bind_ok]
      obtain ⟨b', e1, h1⟩ := decompress_ok (codec := codec) hL ha init_inv hl (y := y)
        (lz := if level > 0 then level else p.kept) (lv := if level > 0 then level else 0) (by cases codec <;> exact hy) fuel
      exact ⟨b', e1, h1, by simp⟩
  obtain ⟨o2, e2, i2, k2⟩ := h2
  suffices h3 : ∃ d', (if key.isSome = true ∨ comp.isSome = true then
      (buf_str o2).bind fun data => buf_write a' (buf_reset d) data else .ok d) = .ok d' ∧ Inv d' argv.flatten by
    obtain ⟨d', e3, i3⟩ := h3
    exact ⟨d', Res.bind_eq_ok.2 ⟨o1, e1, Res.bind_eq_ok.2 ⟨o2, e2, e3⟩⟩, i3⟩
  split
  · rw [(str_ok i2).1, Res.bind_ok]
    exact write_ok ha hreset _ (by omega)
  · rename_i hn
    have hk : key = none := by cases key <;> simp_all
    have hcn : comp = none := by cases comp <;> simp_all
    refine ⟨d, rfl, ?_⟩
    rw [← k1 hk, ← k2 hcn]
    exact i2

/-! Packing succeeds. -/

theorem encrypt_loop_fwd (g : Gcm) (argv : List Bytes) : ∀ (c : Cipher) (b : Buf) (w : Bytes),
    Inv b w → w.length + argv.flatten.length ≤ b.fin → ∃ t, encrypt_loop g c b argv = .ok t := by
  induction argv with
  | nil => intro c b w _ _; exact ⟨_, rfl⟩
  | cons x xs ih =>
    intro c b w h hl
    rw [List.flatten_cons, List.length_append] at hl
    have hs := h.small
    unfold encrypt_loop
    rw [w32 (by omega) (by omega), if_neg (by omega)]
    simp only [Int.toNat_natCast, List.take_length, encrypt_update]
    obtain ⟨b', h', f', e'⟩ := put_fwd h (d := g.mix c.key c.iv c.done.length x) (by rw [mix_length]; omega)
      (fun b => encrypt_loop g { c with done := c.done ++ g.mix c.key c.iv c.done.length x } b xs)
    rw [e']
    exact ih _ b' _ h' (by rw [List.length_append, mix_length, f']; omega)

theorem aes_encrypt_fwd (g : Gcm) {a : Alloc} (ha : Plenty a) {key : Bytes} {b : Buf} {argv : List Bytes} (r0 r1 : Nat)
    (h : Inv b []) (hk : key.length = 32) (hl : argv.flatten.length ≤ 1000000000) : ∃ t, aes_encrypt g a r0 r1 key b argv = .ok t := by
  unfold aes_encrypt
  rw [if_neg (by omega)]
  have hsum : (argv.map List.length).sum = argv.flatten.length := by rw [List.length_flatten]
  dsimp only
  rw [hsum, w32 (by omega) (by omega)]
  obtain ⟨b1, e1, h1, f1⟩ := plenty_reserve ha h (32 + 32 + argv.flatten.length) (by simp only [List.length_nil]; omega)
  rw [e1, Res.bind_ok]
  simp only [List.length_nil] at f1
  obtain ⟨b2, j, e2, f2, lj, h2⟩ := advance_junk (n := 32) h1 (by simp only [List.length_nil]; omega)
  rw [e2, Res.bind_ok]
  rw [List.nil_append] at h2
  obtain ⟨b3, e3, f3, h3⟩ := poke_ok (d := le 8 r0 ++ le 8 r1) (off := 0) h2 (by simp [lj])
  rw [e3, Res.bind_ok]
  have l3 : (List.take 0 j ++ (le 8 r0 ++ le 8 r1) ++ List.drop (0 + (le 8 r0 ++ le 8 r1).length) j).length = 32 := by simp [lj]
  have lb3 : 32 ≤ b3.block.length := by have := h3.le; have := h3.fin; omega
  rw [peek_ok (by omega), Res.bind_ok]
  obtain ⟨⟨c4, b4⟩, e4⟩ := encrypt_loop_fwd g argv (cipher_init key ((b3.block.drop 0).take 12)) b3 _ h3 (by rw [l3]; omega)
  obtain ⟨_, h4, _⟩ := encrypt_loop_ok g argv _ b3 _ c4 b4 (by
      intro x hx
      have := piece_le hx
      omega) h3 e4
  rw [e4, Res.bind_ok]
  dsimp only
  obtain ⟨b5, e5, _, h5⟩ := poke_ok (d := g.tag c4.key c4.iv c4.done) (off := 16) h4 (by
    rw [List.length_append, l3, g.tag_length]; omega)
  rw [e5]
  exact ⟨_, rfl⟩

theorem lz4_updates_fwd (z : Lz4) (argv : List Bytes) (k : Nat) : ∀ (c : z.C) (b : Buf) (w : Bytes),
    (∀ x ∈ argv, x.length < 2147483648) → Inv b w → w.length + (argv.map fun x => z.bound x.length).sum + k ≤ b.fin →
    ∃ c' b' w', lz4_updates z c b argv = .ok (c', b') ∧ Inv b' w' ∧ w'.length + k ≤ b'.fin ∧
      w'.length ≤ w.length + (argv.map fun x => z.bound x.length).sum := by
  induction argv with
  | nil => intro c b w _ h hl; exact ⟨c, b, w, rfl, h, by simpa using hl, by simp⟩
  | cons x xs ih =>
    intro c b w hx h hl
    have hx0 := hx x (by simp)
    rw [List.map_cons, List.sum_cons] at hl
    have hu := z.update_le c x
    unfold lz4_updates
    rw [w32 (by omega) (by omega), if_neg (by omega)]
    simp only [Int.toNat_natCast, List.take_length]
    obtain ⟨b', h', f', e'⟩ := put_fwd h (d := (z.update c x).2) (by omega)
      (fun b => lz4_updates z (z.update c x).1 b xs)
    rw [e']
    obtain ⟨c2, b2, w2, q1, q2, q3, q4⟩ := ih (z.update c x).1 b' _ (fun y hy => hx y (by simp [hy])) h' (by rw [List.length_append, f']; omega)
    refine ⟨c2, b2, w2, q1, q2, q3, ?_⟩
    rw [List.length_append] at q4
    rw [List.map_cons, List.sum_cons]
    omega

theorem lz4_compress_fwd (z : Lz4) {a : Alloc} (ha : Plenty a) {b : Buf} (level : Int) {argv : List Bytes} (h : Inv b [])
    (hl : argv.flatten.length ≤ 1073741824)
    (hb : 19 + z.bound 0 + (argv.map fun x => z.bound x.length).sum ≤ 1000000000) :
    ∃ b' y, lz4_compress z a b level argv = .ok b' ∧ Inv b' y ∧ y.length ≤ 1000000000 := by
  unfold lz4_compress
  dsimp only
  rw [w32 (by omega) (by omega)]
  obtain ⟨b1, e1, h1, f1⟩ := plenty_reserve ha h (19 + z.bound 0 + (argv.map fun x => z.bound x.length).sum) (by simp only [List.length_nil]; omega)
  rw [e1, Res.bind_ok]
  simp only [List.length_nil] at f1
  generalize (if level > 0 then level else 0) = lv
  have hf := z.first_le lv
  obtain ⟨b2, h2, f2, e2⟩ := put_fwd h1 (d := (z.first lv).2) (by simp only [List.length_nil]; omega)
    (fun b => (lz4_updates z (z.first lv).1 b argv).bind fun (c, b) =>
      (put b (z.last c)).bind fun b => buf_advance b (z.last c).length)
  refine e2 ▸ ?_
  obtain ⟨c3, b3, w3, e3, h3, f3, l3⟩ := lz4_updates_fwd z argv (z.bound 0) (z.first lv).1 b2 _ (by
      intro x hx
      have := piece_le hx
      omega) h2 (by simp only [List.nil_append]; omega)
  rw [e3, Res.bind_ok]
  dsimp only
  have hlast := z.last_le c3
  obtain ⟨b4, h4, f4, e4⟩ := put_fwd h3 (d := z.last c3) (by omega) .ok
  refine ⟨b4, _, ?_, h4, ?_⟩
  · rw [← e4]
    congr 1
    funext b
    cases buf_advance b (z.last c3).length <;> rfl
  · simp only [List.nil_append, List.length_append] at *; omega

theorem zstd_compress_fwd (z : Zstd) {a : Alloc} (ha : Plenty a) {b : Buf} (kept level : Int) {argv : List Bytes} (h : Inv b [])
    (hl : argv.flatten.length ≤ 1073741824) :
    ∃ k' b' y, zstd_compress z false a kept b level argv = .ok (k', b') ∧ Inv b' y ∧
      y.length ≤ (z.frame (if level > 0 then level else kept) argv).length := by
  have hsum : (argv.map List.length).sum = argv.flatten.length := by rw [List.length_flatten]
  unfold zstd_compress
  dsimp only
  rw [hsum, w32 (by omega) (by omega)]
  obtain ⟨b1, e1, h1, f1⟩ := plenty_reserve ha h argv.flatten.length (by simpa using hl)
  rw [e1, Res.bind_ok, unused h1]
  generalize (if level > 0 then level else kept) = lv
  rw [if_neg (by simp)]
  simp only [List.length_nil, Nat.sub_zero, Nat.zero_add] at *
  have hle := z.stream_le lv argv b1.fin
  obtain ⟨b2, h2, f2, e2⟩ := put_fwd h1 (d := z.stream lv argv b1.fin) (by simpa using hle) (fun b => Res.ok (lv, b))
  refine ⟨lv, b2, _, e2, h2, ?_⟩
  rw [List.nil_append]
  by_cases hf : (z.frame lv argv).length ≤ b1.fin
  · rw [z.stream_fits _ _ _ hf]; exact Nat.le_refl _
  · omega

/-! The loop of lz4. -/

theorem put_nil {b : Buf} {c : Bytes} (h : Inv b c) : put b [] = .ok b ∧ buf_advance b 0 = .ok b := by
  have hle := h.le
  have hfin := h.fin
  have hpos := h.pos
  constructor
  · unfold put
    rw [if_pos (by simp only [List.length_nil]; omega)]
    simp
  · unfold buf_advance
    rw [if_pos (by omega)]
    simp

theorem loop_succ (z : Lz4) (fuel : Nat) (d : z.D) (b : Buf) (x : UInt8) (src : Bytes) :
    lz4_loop z (fuel + 1) d b (x :: src) =
      match z.step d (wrapU64 (buf_size_unused b)) (x :: src) with
      | none => .err "lz4: operation failed"
      | some (d, out, used) =>
        (put b out).bind fun b => (buf_advance b out.length).bind fun b =>
        lz4_loop z fuel d b ((x :: src).drop used) := by
  rw [lz4_loop]
  rcases z.step d (wrapU64 (buf_size_unused b)) (x :: src) with _ | ⟨_, _, _⟩ <;> rfl

/-- A decoder that takes nothing and gives nothing is called again and again. -/
theorem stuck (z : Lz4) {d : z.D} {b : Buf} {c : Bytes} {x : UInt8} {src : Bytes} (h : Inv b c)
    (hd : z.step d (b.fin - c.length) (x :: src) = some (d, [], 0)) (fuel : Nat) :
    lz4_loop z fuel d b (x :: src) = .abort "does not end" := by
  induction fuel with
  | zero => rfl
  | succ fuel ih =>
    unfold lz4_loop
    rw [unused h, hd]
    dsimp only
    rw [(put_nil h).1, Res.bind_ok, List.length_nil, (put_nil h).2, Res.bind_ok, List.drop_zero, ih]

/-- With space, a decoder takes or gives something. -/
def Moves (z : Lz4) : Prop := ∀ d room src d' out used, src ≠ [] → 0 < room → z.step d room src = some (d', out, used) →
  0 < used ∨ out ≠ []

/-- The states of the loop that follow each other. -/
inductive Reached (z : Lz4) : z.D → Nat → Bytes → z.D → Nat → Bytes → Prop
  | here (d room src) : Reached z d room src d room src
  | step {d room src d1 out used d2 room2 src2} : src ≠ [] → z.step d room src = some (d1, out, used) →
      Reached z d1 (room - out.length) (src.drop used) d2 room2 src2 → Reached z d room src d2 room2 src2

/-- The loop ends unless the space is used up, with data left of which nothing is taken. -/
theorem loop_ends (z : Lz4) (hz : Moves z) : ∀ (fuel : Nat) (d : z.D) (b : Buf) (c src : Bytes), Inv b c →
    src.length + (b.fin - c.length) < fuel →
    lz4_loop z fuel d b src = .abort "does not end" →
    ∃ d' src' d'', src' ≠ [] ∧ Reached z d (b.fin - c.length) src d' 0 src' ∧ z.step d' 0 src' = some (d'', [], 0) := by
  intro fuel
  induction fuel with
  | zero => intro d b c src _ h; omega
  | succ fuel ih =>
    intro d b c src h hlt hr
    cases src with
    | nil => simp [lz4_loop] at hr
    | cons x src =>
      unfold lz4_loop at hr
      rw [unused h] at hr
      cases hst : z.step d (b.fin - c.length) (x :: src) with
      | none => rw [hst] at hr; simp at hr
      | some t =>
        obtain ⟨d1, out, used⟩ := t
        rw [hst] at hr
        dsimp only at hr
        obtain ⟨lo, lu⟩ := z.step_le _ _ _ _ _ _ hst
        have hle := h.le
        by_cases hs : b.fin - c.length = 0 ∧ used = 0
        · have : out = [] := List.eq_nil_of_length_eq_zero (by omega)
          subst this
          refine ⟨d, x :: src, d1, by simp, ?_, ?_⟩
          · rw [hs.1]; exact .here _ _ _
          · rw [hs.1, hs.2] at hst; exact hst
        · obtain ⟨b', h', f', e'⟩ := put_fwd h (d := out) (by omega) (fun b => lz4_loop z fuel d1 b ((x :: src).drop used))
          rw [e'] at hr
          have hm : 0 < used ∨ out ≠ [] := by
            by_cases hr0 : b.fin - c.length = 0
            · left; omega
            · exact hz _ _ _ _ _ _ (by simp) (by omega) hst
          have hlen : 0 < used ∨ 0 < out.length := hm.imp_right List.length_pos_iff.2
          have hle' := h'.le
          rw [List.length_append] at hle'
          obtain ⟨d', src', d'', q1, q2, q3⟩ := ih d1 b' (c ++ out) ((x :: src).drop used) h' (by
            simp only [List.length_drop, List.length_append, f', List.length_cons] at *; omega) hr
          refine ⟨d', src', d'', q1, .step (by simp) hst ?_, q3⟩
          rw [f', List.length_append] at q2
          rwa [Nat.sub_sub]

end Verif.C77
