import Verif.Proofs.C77
import Verif.Model.Region

/-! C77: what was compressed or encrypted is read back, other data is refused. -/
namespace Verif.C77
open Buf Pack
open C67 (str_ok)

/-- The zstd frame is not longer than what it was made of. -/
def Shrinks (comp : Option Codec) (L : Lib) (level : Int) (argv : List Bytes) : Prop :=
  comp = some .zstd → (L.zstd.frame level argv).length ≤ argv.flatten.length

/-- C77, first half: a region that was packed is read back by every reader, whatever
was in its buffers.  Missing: zstd frames that are longer than the region (cut off,
see `C77_zstd_false`). -/
theorem C77_back_partial (comp : Option Codec) : Back comp (Shrinks comp) := by
  intro L a a' level key r0 r1 p argv p' stored r size events hL ha hc he hr hf hs hl h8 hsz hhd hev hp
  refine ⟨1, fun fuel hfu => ?_⟩
  obtain ⟨fuel, rfl⟩ : ∃ n, fuel = n + 1 := ⟨fuel - 1, by omega⟩
  obtain ⟨r', origin, hu, hi⟩ := pack_unpack hL ha hc he hr hl hs hf hp fuel
  subst hsz
  rw [reads_of (by omega) hu hi h8 (Nat.le_refl _)]
  have e4 : argv.flatten.take 4 = le 4 argv.flatten.length := by
    have := congrArg (List.take 4) hhd
    rw [List.take_take, List.take_left' (by simp)] at this
    simpa using this
  have e8 : (argv.flatten.drop 4).take 4 = le 4 events := by
    have := congrArg (List.drop 4) hhd
    rw [List.drop_take, List.drop_left' (by simp)] at this
    simpa using this
  rw [e4, e8, leVal_le_lt (by simp only [Nat.reducePow]; omega), leVal_le_lt (by simp only [Nat.reducePow]; exact hev), if_neg (by simp)]
  rw [List.take_of_length_le (Nat.le_refl _)]

/-- The same for the index of a file, which is unpacked into buffers of its own. -/
theorem C77_index_partial : ∀ (L : Lib) (a a' : Alloc) (comp : Option Codec) (level : Int) (key : Option Bytes) (r0 r1 : Nat)
    (p p' : Packer) (data stored : Bytes) (d : Buf),
    L.Reads → Plenty a' → Used p.compressed → Used p.encrypted →
    Shrinks comp L (if level > 0 then level else p.kept) [data] →
    stored.length ≤ 1073741824 → data.length ≤ 536870912 →
    Used d → buf_str d = .ok stored →
    pack L false a comp level key r0 r1 p [data] = .ok (p', stored) →
    ∃ n, ∀ fuel, n ≤ fuel → (index_unpack L fuel false a' comp key d data.length).bind buf_str = .ok data := by
  intro L a a' comp level key r0 r1 p p' data stored d hL ha hc he hf hs hl hd hst hp
  refine ⟨1, fun fuel hfu => ?_⟩
  obtain ⟨fuel, rfl⟩ : ∃ n, fuel = n + 1 := ⟨fuel - 1, by omega⟩
  have hi : C67.Inv d stored := by
    have hpos := hd.pos
    have hfin := hd.fin
    have hsm := hd.small
    unfold buf_str buf_size at hst
    rw [C67.w32 (by omega) (by omega)] at hst
    dsimp only at hst
    rw [if_pos (by omega), Int.toNat_natCast] at hst
    cases hst
    have e : (d.block.take d.position).length = d.position := by rw [List.length_take]; omega
    exact ⟨hfin, e.symm, by rw [e], hsm⟩
  obtain ⟨d', e', i'⟩ := pack_index (argv := [data]) hL ha hc he hi (by simpa using hl) hs hf hp fuel
  simp only [List.flatten_cons, List.flatten_nil, List.append_nil] at e' i'
  rw [e', Res.bind_ok, (str_ok i').1]

/-- Packing stays inside its memory, and succeeds if there is memory, given room for what
the libraries may need. -/
theorem C77_pack : ∀ (L : Lib) (a : Alloc) (comp : Option Codec) (level : Int) (key : Option Bytes) (r0 r1 : Nat) (p : Packer)
    (argv : List Bytes), Plenty a → Used p.compressed → Used p.encrypted → argv.flatten.length ≤ 536870912 →
    (∀ k, key = some k → k.length = 32) →
    19 + L.lz4.bound 0 + (argv.map fun x => L.lz4.bound x.length).sum ≤ 1000000000 →
    (L.zstd.frame (if level > 0 then level else p.kept) argv).length ≤ 1000000000 →
    ∃ p' stored, pack L false a comp level key r0 r1 p argv = .ok (p', stored) := by
  intro L a comp level key r0 r1 p argv ha hc he hl hk hb hz
  have key_part : ∀ (q : Packer) (ys : List Bytes), C67.Inv q.encrypted [] → ys.flatten.length ≤ 1000000000 →
      ∃ p' stored, (match key with
        | none => Res.ok (q, ys.flatten)
        | some key =>
          (aes_encrypt L.gcm a r0 r1 key q.encrypted ys).bind fun (_, b) =>
          (buf_str b).bind fun y => .ok ({ q with encrypted := b }, y)) = .ok (p', stored) := by
    intro q ys hq hys
    cases key with
    | none => exact ⟨_, _, rfl⟩
    | some k =>
      obtain ⟨⟨c, b⟩, e⟩ := aes_encrypt_fwd L.gcm ha r0 r1 hq (hk k rfl) hys
      obtain ⟨_, hi⟩ := aes_encrypt_ok hq (by omega) e
      dsimp only
      rw [e, Res.bind_ok]
      dsimp only
      rw [(str_ok hi).1]
      exact ⟨_, _, rfl⟩
  unfold pack
  cases comp with
  | none => exact key_part _ argv he.inv (by omega)
  | some codec =>
    have claim : ∃ q y, compression_compress L false a codec
        { p with compressed := buf_reset p.compressed, encrypted := buf_reset p.encrypted } level argv = .ok q ∧
        C67.Inv q.compressed y ∧ y.length ≤ 1000000000 ∧ q.encrypted = buf_reset p.encrypted := by
      unfold compression_compress
      cases codec with
      | zstd =>
        obtain ⟨k', b', y, e, hi, hy⟩ := zstd_compress_fwd L.zstd ha p.kept level (argv := argv) hc.inv (by omega)
        dsimp only
        rw [e]
        exact ⟨_, y, rfl, hi, by omega, rfl⟩
      | lz4 =>
        obtain ⟨b', y, e, hi, hy⟩ := lz4_compress_fwd L.lz4 ha level (argv := argv) hc.inv (by omega) hb
        dsimp only
        rw [e]
        exact ⟨_, _, rfl, hi, hy, rfl⟩
    obtain ⟨q, y, e, hi, hy, hq⟩ := claim
    obtain ⟨p', stored, e'⟩ := key_part q [y] (hq ▸ he.inv) (by simpa using hy)
    refine ⟨p', stored, ?_⟩
    dsimp only
    rw [e, Res.bind_ok, (str_ok hi).1, Res.bind_ok, Res.bind_ok]
    exact e'

/-- C77, second half, for encrypted data of at least 32 bytes with a wrong tag: it is
refused, always in the same way. -/
theorem C77_tamper_partial : ∀ (L : Lib) (comp : Option Codec) (k stored : Bytes) (size events fuel : Nat) (a : Alloc) (r : Reader),
    k.length = 32 → 32 ≤ stored.length → stored.length ≤ 1073741824 → Plenty a → Ready r →
    (stored.drop 16).take 16 ≠ L.gcm.tag k (stored.take 12) (stored.drop 32) →
    reads L fuel a comp (some k) r stored size events = .err "aes: decryption failed" :=
  fun _ _ _ _ _ _ _ _ _ hk hl hs ha hr ht => tampered ha hr hs hk hl ht

/-- Also for all data without compression that has room for the header and as many
bytes as the index says (after the 32 bytes of an encryption): what is read depends
on nothing else.  Missing: shorter data, and compression. -/
theorem C77_refuses_partial : ∀ (L : Lib) (key : Option Bytes) (stored : Bytes) (size events : Nat),
    stored.length ≤ 1073741824 → 8 ≤ size → size + (if key.isSome then 32 else 0) ≤ stored.length →
    ∃ (n : Nat) (res : Res Bytes), (∀ s, res ≠ .ub s) ∧ (∀ s, res ≠ .abort s) ∧
      ∀ fuel a r, n ≤ fuel → Plenty a → Ready r → reads L fuel a none key r stored size events = res := by
  intro L key stored size events hs h8 hsz
  by_cases ho : Opens L key stored
  · refine ⟨0, if leVal ((opened L key stored).take 4) ≠ size ∨ leVal (((opened L key stored).drop 4).take 4) ≠ events
      then .err "read: region meta data mismatch" else .ok ((opened L key stored).take size), ?_, ?_, ?_⟩
    · intro s; split <;> simp
    · intro s; split <;> simp
    · intro fuel a r _ ha hr
      obtain ⟨r', origin, hi, _, e⟩ := opened_ok (comp := none) ha hr hs ho
      have hlen : size ≤ (opened L key stored).length := by
        cases key with
        | none => simpa [opened] using hsz
        | some k => simp only [opened, mix_length, List.length_drop, Option.isSome_some, if_true] at *; omega
      exact reads_of (by split at hsz <;> omega) (e fuel _) hi (by omega) hlen
  · cases key with
    | none => exact absurd trivial ho
    | some k =>
      simp only [Option.isSome_some, if_true] at hsz
      by_cases hk : k.length = 32
      · exact ⟨0, .err "aes: decryption failed", by simp, by simp, fun fuel a r _ ha hr =>
          tampered ha hr hs hk (by omega) (fun hg => ho ⟨hk, by omega, hg⟩)⟩
      · exact ⟨0, .err "aes: encryption key must be 256bit", by simp, by simp, fun fuel a r _ ha hr => bad_key ha hr hs hk⟩

/-- Reading lz4 data ends, given a decoder that with space takes or gives something,
unless the space is used up and the decoder takes nothing of what is left. -/
theorem C77_ends_partial : ∀ (z : Lz4) (a : Alloc) (data : Bytes) (size : Nat) (b : Buf), Moves z → Plenty a → Used b → size ≤ 1073741824 →
    (∃ n, lz4_decompress z n false a (buf_reset b) data size ≠ .abort "does not end") ∨
    ∃ room d' src' d'', size ≤ room ∧ src' ≠ [] ∧ Reached z z.fresh room data d' 0 src' ∧ z.step d' 0 src' = some (d'', [], 0) := by
  intro z a data size b hz ha hb hs
  obtain ⟨b1, e1, h1, f1⟩ := plenty_reserve ha hb.inv size (by simpa using hs)
  by_cases hn : lz4_decompress z (data.length + b1.fin + 1) false a (buf_reset b) data size = .abort "does not end"
  · right
    unfold lz4_decompress at hn
    rw [e1, Res.bind_ok] at hn
    cases hl : lz4_loop z (data.length + b1.fin + 1) z.fresh b1 data with
    | ok b2 => rw [hl, Res.bind_ok] at hn; simp at hn
    | err m => rw [hl] at hn; simp at hn
    | ub m => rw [hl] at hn; simp at hn
    | abort m =>
      rw [hl, Res.bind_abort] at hn
      cases hn
      obtain ⟨d', src', d'', q1, q2, q3⟩ := loop_ends z hz _ z.fresh b1 [] data h1 (by simp only [List.length_nil]; omega) hl
      exact ⟨_, d', src', d'', by simpa using f1, q1, q2, q3⟩
  · exact .inl ⟨_, hn⟩

/-- The encryption of `Model/Region.lean`, on which the properties of files rest, is
what the code does with new buffers, for up to 2^29 bytes. -/
theorem C77_encr : ∀ (g : Gcm) (a : Alloc) (key : Bytes), Plenty a → ∃ e : Io.Encr,
    (∀ n x, x.length ≤ Io.bufLimit → e.encrypt n x = (aes_encrypt g a n (n / pow64) key buf_init [x]).bind fun (_, b) => buf_str b) ∧
    (∀ y, y.length ≤ Io.bufLimit + 32 → e.decrypt y = (aes_decrypt g a key buf_init y y.length).bind fun (_, b) => buf_str b) := by
  intro g a key ha
  have main : ∀ n x y, x.length ≤ Io.bufLimit →
      ((aes_encrypt g a n (n / pow64) key buf_init [x]).bind fun (_, b) => buf_str b) = .ok y →
      y.length = 32 + x.length ∧ ((aes_decrypt g a key buf_init y y.length).bind fun (_, b) => buf_str b) = .ok x := by
    intro n x y hx hr
    have hx' : x.length ≤ 536870912 := hx
    obtain ⟨⟨c, b⟩, e1, hr⟩ := Res.bind_eq_ok.1 hr
    obtain ⟨hk, hi⟩ := aes_encrypt_ok init_inv (by simp only [List.flatten_cons, List.flatten_nil, List.append_nil]; omega) e1
    simp only [List.flatten_cons, List.flatten_nil, List.append_nil] at hi
    dsimp only at hr
    rw [(str_ok hi).1] at hr
    cases hr
    obtain ⟨s1, s2, s3, s4⟩ := sealed_parts g key n (n / pow64) x
    refine ⟨s2, ?_⟩
    obtain ⟨c', b', h', e'⟩ := aes_decrypt_ok g ha hk init_inv s1 (by omega) (List.take_of_length_le (Nat.le_refl _))
    rw [if_pos s3] at e'
    rw [e', Res.bind_ok]
    dsimp only
    rw [(str_ok h').1, s4]
  refine ⟨{
    encrypt := fun n x => if x.length ≤ Io.bufLimit then
      (aes_encrypt g a n (n / pow64) key buf_init [x]).bind fun (_, b) => buf_str b else .ub "too long"
    decrypt := fun y => if y.length ≤ Io.bufLimit + 32 then
      (aes_decrypt g a key buf_init y y.length).bind fun (_, b) => buf_str b else .ub "too long"
    law := ?_
    encrypt_ne := ?_ }, ?_, ?_⟩
  · intro n x y h
    split at h
    · rename_i hx
      obtain ⟨l, e⟩ := main n x y hx h
      rw [if_pos (by omega), e]
    · cases h
  · intro n x y h
    split at h
    · rename_i hx
      obtain ⟨l, e⟩ := main n x y hx h
      intro hy
      rw [hy] at l
      simp only [List.length_nil] at l
      omega
    · cases h
  · intro n x hx
    dsimp only
    rw [if_pos hx]
  · intro y hy
    dsimp only
    rw [if_pos hy]

/-! A small set of libraries for examples. -/

/-- The rest of a frame: 1 and a byte for every byte, then 0.  What was written, how
much was taken, and if the frame is over. -/
def toyStep : Nat → Bytes → Option (Bytes × Nat × Bool)
  | _, [] => some ([], 0, false)
  | 0, x :: _ => if x = 0 then some ([], 1, true) else if x = 1 then some ([], 0, false) else none
  | room + 1, x :: src =>
    if x = 0 then some ([], 1, true)
    else if x = 1 then
      match src with
      | [] => none
      | y :: src => (toyStep room src).map fun (out, used, done) => (y :: out, used + 2, done)
    else none

theorem toyStep_le : ∀ room src out used done, toyStep room src = some (out, used, done) → out.length ≤ room ∧ used ≤ src.length := by
  intro room
  induction room with
  | zero =>
    intro src out used done h
    cases src with
    | nil => simp [toyStep] at h; simp [h.1, ← h.2.1]
    | cons x src =>
      unfold toyStep at h
      split at h
      · simp at h; simp [h.1, ← h.2.1]
      · split at h
        · simp at h; simp [h.1, ← h.2.1]
        · cases h
  | succ room ih =>
    intro src out used done h
    cases src with
    | nil => simp [toyStep] at h; simp [h.1, ← h.2.1]
    | cons x src =>
      unfold toyStep at h
      split at h
      · simp at h; simp [h.1, ← h.2.1]
      · split at h
        · cases src with
          | nil => cases h
          | cons y src =>
            simp only [Option.map_eq_some_iff] at h
            obtain ⟨⟨o, u, dn⟩, h1, h2⟩ := h
            simp only [Prod.mk.injEq] at h2
            obtain ⟨rfl, rfl, rfl⟩ := h2
            have := ih src o u dn h1
            simp only [List.length_cons]
            omega
        · cases h

/-- What stands for some bytes in a frame. -/
def toyBytes (x : Bytes) : Bytes := x.flatMap fun b => [1, b]

theorem toyStep_frame : ∀ (x : Bytes) (room : Nat), x.length ≤ room →
    toyStep room (toyBytes x ++ [0]) = some (x, (toyBytes x ++ [0]).length, true) := by
  intro x
  induction x with
  | nil => intro room _; cases room <;> rfl
  | cons y x ih =>
    intro room h
    cases room with
    | zero => simp at h
    | succ room =>
      have := ih room (by simpa using h)
      have e : toyBytes (y :: x) ++ [0] = 1 :: y :: (toyBytes x ++ [0]) := by simp [toyBytes]
      rw [e]
      unfold toyStep
      simp only [this]
      simp

/-- A frame: 9, the bytes, 0. -/
def toyLz4 : Lz4 where
  C := Unit
  D := Bool
  fresh := false
  bound n := 2 * n + 1
  first _ := ((), [9])
  update _ x := ((), toyBytes x)
  last _ := [0]
  step d room src :=
    if d then (toyStep room src).map fun (out, used, done) => (!done, out, used)
    else match src with
      | [] => some (false, [], 0)
      | x :: src => if x = 9 then (toyStep room src).map fun (out, used, done) => (!done, out, used + 1) else none
  first_le _ := by simp
  update_le _ x := by
    have : (toyBytes x).length = 2 * x.length := by
      induction x with
      | nil => rfl
      | cons y x ih => simp only [toyBytes, List.flatMap_cons, List.length_append, List.length_cons, List.length_nil] at *; omega
    simp only [this]; omega
  last_le _ := by simp
  first_ne _ := by simp
  step_le := by
    intro d room src d' out used h
    cases d with
    | true =>
      simp only [if_true, Option.map_eq_some_iff] at h
      obtain ⟨⟨o, u, dn⟩, h1, h2⟩ := h
      simp only [Prod.mk.injEq] at h2
      obtain ⟨-, rfl, rfl⟩ := h2
      exact toyStep_le _ _ _ _ _ h1
    | false =>
      cases src with
      | nil => simp at h; simp [h.2.1, ← h.2.2]
      | cons x src =>
        simp only [Bool.false_eq_true, if_false] at h
        split at h
        · simp only [Option.map_eq_some_iff] at h
          obtain ⟨⟨o, u, dn⟩, h1, h2⟩ := h
          simp only [Prod.mk.injEq] at h2
          obtain ⟨-, rfl, rfl⟩ := h2
          have := toyStep_le _ _ _ _ _ h1
          simp only [List.length_cons]
          omega
        · cases h

theorem toyLz4_body : ∀ (xs : List Bytes) (c : Unit), toyLz4.body c xs = toyBytes xs.flatten ++ [0]
  | [], _ => rfl
  | x :: xs, c => by
    change toyBytes x ++ toyLz4.body () xs = _
    rw [toyLz4_body xs]
    simp [toyBytes]

/-- Frames: 40, the level, the bytes, 41, or 42 if the bytes end with 16 zeroes, which
are left out. -/
def toyFrame (l : Int) (x : Bytes) : Bytes :=
  if 16 ≤ x.length ∧ x.drop (x.length - 16) = List.replicate 16 0
  then 42 :: UInt8.ofNat l.toNat :: (x.take (x.length - 16) ++ [41])
  else 40 :: UInt8.ofNat l.toNat :: (x ++ [41])

def toyUnframe (d : Bytes) : Option Bytes :=
  match d with
  | [] => none
  | [_] => none
  | x :: _ :: rest =>
    if rest.getLast? ≠ some 41 then none
    else if x = 40 then some rest.dropLast
    else if x = 42 then some (rest.dropLast ++ List.replicate 16 0)
    else none

theorem toyUnframe_frame (l : Int) (x : Bytes) : toyUnframe (toyFrame l x) = some x := by
  unfold toyFrame
  split
  · rename_i h
    simp only [toyUnframe, List.getLast?_append, List.getLast?_singleton, Option.some_or, ne_eq, not_true_eq_false, if_false,
      List.dropLast_append_cons, List.dropLast_singleton, List.append_nil, show ¬ ((42 : UInt8) = 40) by decide, if_true]
    rw [← h.2, List.take_append_drop]
  · simp [toyUnframe]

/-- zstd with these frames. -/
def toyZstd : Zstd where
  frame l xs := toyFrame l xs.flatten
  stream l xs n := (toyFrame l xs.flatten).take n
  decompress d n := (toyUnframe d).bind fun x => if x.length ≤ n then some x else none
  stream_le _ _ n := by simp only [List.length_take]; omega
  stream_fits _ _ n h := List.take_of_length_le h
  decompress_le := by
    intro d n o h
    obtain ⟨x, _, h⟩ := Option.bind_eq_some_iff.1 h
    split at h
    · cases h; assumption
    · cases h

/-- The libraries of the examples: a stream and a tag that are not secret at all. -/
def toy : Lib where
  gcm := { stream := fun _ _ n => UInt8.ofNat (n + 3), tag := fun _ v c => List.replicate 16 ((v ++ c).foldl (· + ·) 5), tag_length := by simp }
  lz4 := toyLz4
  zstd := toyZstd

theorem toy_reads : toy.Reads where
  lz4 := by
    intro level xs room h
    refine ⟨false, ?_⟩
    change (match (9 :: toyLz4.body () xs : Bytes) with
      | [] => some (false, [], 0)
      | x :: src => if x = 9 then (toyStep room src).map fun (out, used, done) => (!done, out, used + 1) else none) =
      some (false, xs.flatten, (9 :: toyLz4.body () xs : Bytes).length)
    rw [toyLz4_body]
    simp only [if_true, toyStep_frame _ _ h]
    simp
  zstd := by
    intro level xs n h
    change ((toyUnframe (toyFrame level xs.flatten)).bind fun x => if x.length ≤ n then some x else none) = _
    rw [toyUnframe_frame, Option.bind_some, if_pos h]

/-- Memory with some byte in it. -/
def filled (x : UInt8) : Alloc := ⟨fun _ => true, fun _ => x⟩

theorem filled_plenty (x : UInt8) : Plenty (filled x) := fun _ => rfl

theorem init_used : Used buf_init := ⟨rfl, by decide, by decide⟩

theorem init_ready : Ready reader_init := ⟨init_used, init_used, init_used⟩

/-- A key. -/
def key32 : Bytes := List.replicate 32 7

/-- A region of 12 bytes with one event. -/
def region12 : Bytes := [12, 0, 0, 0, 1, 0, 0, 0, 0xAA, 0xBB, 0xCC, 0xDD]

/-- What is stored for it with lz4 and encryption. -/
def stored12 : Bytes := sealed toy.gcm key32 5 6 (toyLz4.frame 0 [region12])

/-- Packed with lz4 and encrypted, it is read back by a reader that read something else
before. -/
example :
    ((pack toy false (filled 1) (some .lz4) 0 (some key32) 5 6 ⟨buf_init, buf_init, 0⟩ [region12.take 8, region12.drop 8]).bind fun (_, stored) =>
      (reader_unpack toy 5 false (filled 2) none none reader_init [1, 2, 3] 3).bind fun (r, _) =>
      (reads toy 5 (filled 3) (some .lz4) (some key32) r stored 12 1).bind fun x => .ok (stored.length, x)) =
    .ok (58, region12) := by
  decide +kernel

/-- A region of 32 bytes, most of them zero. -/
def region32 : Bytes := [32, 0, 0, 0, 1, 0, 0, 0, 0xAA, 0xBB, 0xCC, 0xDD, 1, 2, 3, 4] ++ List.replicate 16 0

/-- Also with zstd, whose frame is shorter here. -/
example : (toy.zstd.frame 3 [region32.take 24, region32.drop 24]).length ≤ region32.length ∧
    ((pack toy false (filled 1) (some .zstd) 3 (some key32) 5 6 ⟨buf_init, buf_init, 0⟩ [region32.take 24, region32.drop 24]).bind
      fun (_, stored) =>
      (reads toy 5 (filled 3) (some .zstd) (some key32) reader_init stored 32 1).bind fun x => .ok (stored.length, x)) =
    .ok (51, region32) := by
  decide +kernel

/-- There is room for what the libraries may need. -/
example : 19 + toy.lz4.bound 0 + ([region32.take 24, region32.drop 24].map fun x => toy.lz4.bound x.length).sum ≤ 1000000000 ∧
    (toy.zstd.frame 0 [region32.take 24, region32.drop 24]).length ≤ 1000000000 := by
  decide +kernel

/-- One wrong byte is noticed. -/
example : reads toy 5 (filled 3) (some .lz4) (some key32) reader_init (stored12.set 40 0) 12 1 = .err "aes: decryption failed" := by
  decide +kernel

/-- The index is read back. -/
example :
    ((pack toy false (filled 1) (some .lz4) 0 (some key32) 5 6 ⟨buf_init, buf_init, 0⟩ [region12]).bind fun (_, stored) =>
      (buf_write (filled 0) buf_init stored).bind fun d =>
      (index_unpack toy 5 false (filled 3) (some .lz4) (some key32) d 12).bind buf_str) = .ok region12 := by
  decide +kernel

/-- The decoder of the examples takes or gives something when it has space. -/
theorem toy_moves : Moves toyLz4 := by
  have main : ∀ room src out used done, src ≠ [] → 0 < room → toyStep room src = some (out, used, done) → 0 < used := by
    intro room src out used done hs hr h
    obtain ⟨room, rfl⟩ : ∃ n, room = n + 1 := ⟨room - 1, by omega⟩
    cases src with
    | nil => exact absurd rfl hs
    | cons x src =>
      unfold toyStep at h
      split at h
      · simp at h; omega
      · split at h
        · cases src with
          | nil => cases h
          | cons y src =>
            simp only [Option.map_eq_some_iff] at h
            obtain ⟨⟨o, u, dn⟩, h1, h2⟩ := h
            simp only [Prod.mk.injEq] at h2
            omega
        · cases h
  intro d room src d' out used hs hr h
  left
  cases d with
  | true =>
    change ((toyStep room src).map fun (out, used, done) => (!done, out, used)) = _ at h
    obtain ⟨⟨o, u, dn⟩, h1, h2⟩ := Option.map_eq_some_iff.1 h
    have e2 : u = used := congrArg (fun t => t.2.2) h2
    have := main _ _ _ _ _ hs hr h1
    omega
  | false =>
    cases src with
    | nil => exact absurd rfl hs
    | cons x src =>
      change (if x = 9 then (toyStep room src).map fun (out, used, done) => (!done, out, used + 1) else none) = _ at h
      split at h
      · obtain ⟨⟨o, u, dn⟩, h1, h2⟩ := Option.map_eq_some_iff.1 h
        have e2 : u + 1 = used := congrArg (fun t => t.2.2) h2
        omega
      · cases h

example : Moves toyLz4 ∧ lz4_decompress toyLz4 9 false (filled 0) buf_init (toyLz4.frame 0 [region12]) 12 ≠ .abort "does not end" :=
  ⟨toy_moves, by decide +kernel⟩

/-! What is wrong. -/

/-- Encrypted data of fewer than 32 bytes: vector and tag are read from outside. -/
theorem C77_short_false : reads toy 5 (filled 0) none (some key32) reader_init (List.replicate 20 1) 12 1 =
    .ub "read past the end of the block" := by
  decide +kernel

/-- Also if the bytes were there in a buffer used before: the length gets negative. -/
theorem C77_negative_false :
    ((reader_unpack toy 5 false (filled 0) none none reader_init (List.replicate 40 1) 40).bind fun (r, _) =>
      reads toy 5 (filled 0) none (some key32) r (List.replicate 20 1) 12 1) = .ub "negative length" := by
  decide +kernel

/-- An lz4 frame with one byte more than the index says is read forever. -/
theorem C77_endless_false : ∀ fuel, reads toy fuel (filled 0) (some .lz4) none reader_init (toyLz4.frame 0 [region12]) 11 1 =
    .abort "does not end" := by
  intro fuel
  have e : ∃ b, buf_reserve (filled 0) (buf_reset buf_init) 11 = .ok b ∧ b.fin = 11 ∧ C67.Inv b [] ∧
      ∃ b', put b (region12.take 11) = .ok b' ∧ buf_advance b' 11 = .ok { b' with position := 11 } ∧ b'.fin = 11 ∧
        C67.Inv { b' with position := 11 } (region12.take 11) := by
    refine ⟨⟨List.replicate 11 0, 0, 11⟩, by decide +kernel, rfl, ⟨rfl, rfl, rfl, by decide⟩,
      ⟨region12.take 11, 0, 11⟩, by decide +kernel, by decide +kernel, rfl, ⟨rfl, rfl, rfl, by decide⟩⟩
  obtain ⟨b, e1, hf, hi, b', e2, e3, hf', hi'⟩ := e
  have hu : ∀ fuel, reader_unpack toy fuel false (filled 0) (some .lz4) none reader_init (toyLz4.frame 0 [region12]) 11 =
      ((lz4_loop toyLz4 fuel toyLz4.fresh b (toyLz4.frame 0 [region12])).bind fun b => .ok b).bind fun b =>
        .ok (⟨⟨toyLz4.frame 0 [region12], 26, 26⟩, buf_reset buf_init, b⟩, b) := by
    intro fuel
    have f1 : buf_fill (filled 0) (buf_reset reader_init.buf) (wrapS32 (toyLz4.frame 0 [region12]).length) (toyLz4.frame 0 [region12]) =
        .ok ⟨toyLz4.frame 0 [region12], 26, 26⟩ := by decide +kernel
    have f2 : buf_str ⟨toyLz4.frame 0 [region12], 26, 26⟩ = .ok (toyLz4.frame 0 [region12]) := by decide +kernel
    unfold reader_unpack
    rw [f1, Res.bind_ok]
    dsimp only [Res.bind_ok]
    rw [f2, Res.bind_ok]
    unfold compression_decompress lz4_decompress
    dsimp only
    change ((buf_reserve (filled 0) (buf_reset buf_init) 11).bind _).bind _ = _
    rw [e1, Res.bind_ok]
    simp only [Bool.false_eq_true, false_and, if_false]
    rfl
  have hloop : ∀ fuel, lz4_loop toyLz4 fuel toyLz4.fresh b (toyLz4.frame 0 [region12]) = .abort "does not end" := by
    intro fuel
    have hfr : toyLz4.frame 0 [region12] = 9 :: (toyLz4.frame 0 [region12]).drop 1 := by decide +kernel
    rw [hfr]
    cases fuel with
    | zero => rfl
    | succ fuel =>
      rw [loop_succ, unused hi, hf]
      have hst : toyLz4.step toyLz4.fresh (11 - ([] : Bytes).length) (9 :: (toyLz4.frame 0 [region12]).drop 1) =
          some (true, region12.take 11, 23) := by rfl
      rw [hst]
      dsimp only
      rw [e2, Res.bind_ok]
      change (buf_advance b' 11).bind _ = _
      rw [e3, Res.bind_ok]
      exact stuck toyLz4 (d := true) (x := 1) (src := [0xDD, 0]) hi' (by dsimp only; rw [hf']; rfl) fuel
  unfold reads reader_execute
  rw [C67.w32 (by omega) (by omega)]
  change ((((reader_unpack toy fuel false (filled 0) (some .lz4) none reader_init (toyLz4.frame 0 [region12]) 11).bind _)).bind _) = _
  rw [hu, hloop]
  rfl

/-- An lz4 frame that is cut off gives a region that ends with what was in memory, and so
does a zstd frame with fewer bytes than the index says. -/
theorem C77_stale_false :
    reads toy 5 (filled 1) (some .lz4) none reader_init ((toyLz4.frame 0 [region12]).take 23) 12 1 = .ok (region12.take 11 ++ [1]) ∧
    reads toy 5 (filled 2) (some .lz4) none reader_init ((toyLz4.frame 0 [region12]).take 23) 12 1 = .ok (region12.take 11 ++ [2]) ∧
    reads toy 5 (filled 1) (some .zstd) none reader_init (toyZstd.frame 0 [region12.take 11]) 12 1 = .ok (region12.take 11 ++ [1]) ∧
    reads toy 5 (filled 2) (some .zstd) none reader_init (toyZstd.frame 0 [region12.take 11]) 12 1 = .ok (region12.take 11 ++ [2]) := by
  decide +kernel

/-- The rest of another region read before shows up. -/
theorem C77_leftover_false :
    ((reader_unpack toy 5 false (filled 0) (some .lz4) none reader_init (toyLz4.frame 0 [region32]) 32).bind fun (r, _) =>
      reads toy 5 (filled 0) (some .lz4) none r ((toyLz4.frame 0 [region12]).take 17) 12 1) =
    .ok (region12.take 8 ++ (region32.drop 8).take 4) := by
  decide +kernel

/-- A zstd frame that is longer than the region is cut off, and cannot be read. -/
theorem C77_zstd_false : ¬ Back (some .zstd) fun _ _ _ => True := by
  intro h
  have hp : pack toy false (filled 0) (some .zstd) 0 none 0 0 ⟨buf_init, buf_init, 0⟩ [region12] =
      .ok (⟨⟨(toyFrame 0 region12).take 12, 12, 12⟩, buf_init, 0⟩, (toyFrame 0 region12).take 12) := by decide +kernel
  obtain ⟨n, hn⟩ := h toy (filled 0) (filled 0) 0 none 0 0 ⟨buf_init, buf_init, 0⟩ [region12] _ _ reader_init 12 1
    toy_reads (filled_plenty 0) init_used init_used init_ready trivial (by decide) (by decide) (by decide) rfl (by decide) (by decide) hp
  have := hn n (Nat.le_refl _)
  have e : reads toy n (filled 0) (some .zstd) none reader_init ((toyFrame 0 region12).take 12) 12 1 = .err "zstd: decompression failed" := by
    have e0 : reads toy n (filled 0) (some .zstd) none reader_init ((toyFrame 0 region12).take 12) 12 1 =
        reads toy 0 (filled 0) (some .zstd) none reader_init ((toyFrame 0 region12).take 12) 12 1 := by
      unfold reads reader_execute reader_unpack compression_decompress
      simp only
    rw [e0]
    decide +kernel
  rw [e] at this
  cases this

/-- The level of a zstd context stays for those who use it later and set none. -/
theorem C77_level_false :
    ((pack toy false (filled 0) (some .zstd) 9 none 0 0 ⟨buf_init, buf_init, 0⟩ [region32]).bind fun (p, _) =>
      (pack toy false (filled 0) (some .zstd) 0 none 0 0 p [region32]).bind fun (_, x) => .ok x) =
      .ok (toyFrame 9 region32) ∧
    ((pack toy false (filled 0) (some .zstd) 0 none 0 0 ⟨buf_init, buf_init, 0⟩ [region32]).bind fun (_, x) => .ok x) =
      .ok (toyFrame 0 region32) := by
  decide +kernel

/-- So neither half holds in full. -/
theorem C77_false : ¬ (∀ comp, Back comp fun _ _ _ => True) ∧ ¬ Refuses := by
  refine ⟨fun h => C77_zstd_false (h _), fun h => ?_⟩
  obtain ⟨n, res, h1, -, h3⟩ := h toy none (some key32) (List.replicate 20 1) 12 1 toy_reads (by decide) (by decide) (by decide)
  have e := h3 n (filled 0) reader_init (Nat.le_refl _) (filled_plenty 0) init_ready
  have e' : reads toy n (filled 0) none (some key32) reader_init (List.replicate 20 1) 12 1 = .ub "read past the end of the block" := by
    have e0 : reads toy n (filled 0) none (some key32) reader_init (List.replicate 20 1) 12 1 =
        reads toy 5 (filled 0) none (some key32) reader_init (List.replicate 20 1) 12 1 := by
      unfold reads reader_execute reader_unpack
      simp only
    rw [e0]
    exact C77_short_false
  exact h1 _ (e.symm.trans e')

end Verif.C77
