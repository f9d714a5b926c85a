import Verif.Proofs.C87
import Verif.Props.C77

/-! C87: what the name of a storage tells of its key. -/
namespace Verif.C87
open Random Buf Pack

/-- A key given in the command is not told by the name: with every name that a storage
can have it can have every key.  Missing: keys that are made, of which the name tells
almost all (`C87_few`). -/
theorem C87_chosen_partial : Hidden true := hidden_chosen

/-- The key of a storage which is made by CREATE STORAGE is found from the uuid with one
of 2^26 guesses, and with it everything that is drawn later. -/
theorem C87_search (fuel others : Nat) (r r' : Random) (uuid : Uuid) (key : Bytes)
    (h : storage_create fuel others r true [] = .ok (r', uuid, key)) : ∃ g, g < Guesses ∧ guess fuel others uuid g = .ok (r', key) :=
  search h

/-- A storage of a seed, its key, and the guess which finds it. -/
example : (storage_create 40 0 ⟨0x123456789abcdef1, 0xfedcba9876543212⟩ true [] =
      .ok (⟨7211479608826749490, 15398971426430392419⟩, ⟨14952619425350675954, 3668201511080300881⟩,
        "887LBGxQ9OyjDWanRF4KMswK3cyqQzku".toUTF8.toList)) ∧ 55426016 < Guesses ∧
    guess 40 0 ⟨14952619425350675954, 3668201511080300881⟩ 55426016 = .ok (⟨7211479608826749490, 15398971426430392419⟩,
      "887LBGxQ9OyjDWanRF4KMswK3cyqQzku".toUTF8.toList) := by
  have e : "887LBGxQ9OyjDWanRF4KMswK3cyqQzku".toUTF8.toList = ([56, 56, 55, 76, 66, 71, 120, 81, 57, 79, 121, 106, 68, 87, 97, 110, 82,
    70, 52, 75, 77, 115, 119, 75, 51, 99, 121, 113, 81, 122, 107, 117] : Bytes) := by decide +kernel
  rw [e]
  decide +kernel

/-- So with each name there are at most 2^26 keys, of 62^32. -/
theorem C87_few (others : Nat) (name : List Nat) :
    ∃ l : List Bytes, l.length ≤ Guesses ∧ ∀ k, Possible false others name k → k ∈ l := few others name

/-- False of the code: with no name a storage can have every key. -/
theorem C87_narrow_false (others : Nat) (name : List Nat) : ∃ k, IsKey k ∧ ¬ Possible false others name k := narrow others name

/-- False of the code. -/
theorem C87_false : ¬ Full := by
  intro h
  have hp : ∃ name k, Possible false 0 name k := by
    have : (storage_create 40 0 ⟨1, 2⟩ true []).bind (fun x => .ok x.2.2.length) = .ok 32 := by decide +kernel
    obtain ⟨⟨r', u, k⟩, e, -⟩ := Res.bind_eq_ok.1 this
    exact ⟨Uuid.text u, k, 40, ⟨1, 2⟩, r', u, e, rfl⟩
  obtain ⟨name, k, hp⟩ := hp
  obtain ⟨k', h1, h2⟩ := narrow 0 name
  exact h2 (h false 0 name k hp k' h1)

/-- Anything encrypted tells the same, with any key: what is stored of it begins with two
numbers that were drawn one after the other, and with 2^26 guesses they tell the key that
was made `d` numbers before. -/
theorem C87_file (fuel d : Nat) (r r' : Random) (key : Bytes) (g : Gcm) (a : Alloc) (used : Bytes) (b b' : Buf) (argv : List Bytes)
    (c : Cipher) (stored : Bytes) (hk : storage_key fuel r true [] = .ok (r', key)) (hd : d + 2 ≤ C68.Cycle)
    (hb : C77.Used b) (hl : argv.flatten.length < 2147483648)
    (h : aes_encrypt g a (random_generate (pass d r)).2.toNat (random_generate (random_generate (pass d r)).1).2.toNat used
      (buf_reset b) argv = .ok (c, b')) (hs : buf_str b' = .ok stored) :
    ∃ guess, guess < Guesses ∧ guessFile fuel d stored guess = .ok (r', key) :=
  file_search hk hd rfl rfl (sealed_head hb hl h hs)

/-- A file encrypted with another key, 40 numbers after the seed. -/
example : ∃ c b' stored r' key, storage_key 40 ⟨0x123456789abcdef1, 0xfedcba9876543212⟩ true [] = .ok (r', key) ∧ 40 + 2 ≤ C68.Cycle ∧
    C77.Used buf_init ∧ [C77.region12].flatten.length < 2147483648 ∧
    aes_encrypt C77.toy.gcm (C77.filled 1) (random_generate (pass 40 ⟨0x123456789abcdef1, 0xfedcba9876543212⟩)).2.toNat
      (random_generate (random_generate (pass 40 ⟨0x123456789abcdef1, 0xfedcba9876543212⟩)).1).2.toNat C77.key32
      (buf_reset buf_init) [C77.region12] = .ok (c, b') ∧ buf_str b' = .ok stored ∧ stored.length = 44 := by
  have h : ((aes_encrypt C77.toy.gcm (C77.filled 1) (random_generate (pass 40 ⟨0x123456789abcdef1, 0xfedcba9876543212⟩)).2.toNat
      (random_generate (random_generate (pass 40 ⟨0x123456789abcdef1, 0xfedcba9876543212⟩)).1).2.toNat C77.key32
      (buf_reset buf_init) [C77.region12]).bind fun x => (buf_str x.2).bind fun y => .ok y.length) = .ok 44 := by decide +kernel
  have hk : (storage_key 40 ⟨0x123456789abcdef1, 0xfedcba9876543212⟩ true []).bind (fun x => .ok x.2.length) = .ok 32 := by decide +kernel
  obtain ⟨⟨r', key⟩, ek, -⟩ := Res.bind_eq_ok.1 hk
  obtain ⟨⟨c, b'⟩, e1, h⟩ := Res.bind_eq_ok.1 h
  obtain ⟨stored, e2, h⟩ := Res.bind_eq_ok.1 h
  exact ⟨c, b', stored, r', key, ek, by decide, C77.init_used, by decide, e1, e2, by injection h⟩

end Verif.C87
