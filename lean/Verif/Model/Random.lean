import Verif.Model.Bytes

/-! Model of the random numbers in runtime/lib/random.c and of the encryption keys
made of them. -/
namespace Verif
namespace Random

/-- `struct Random`, random.h:18-22; the lock is left out: it makes each number be
drawn at once. -/
structure Random where
  seed0 : UInt64
  seed1 : UInt64
deriving Repr, DecidableEq

/-- random_open, random.c:32-55.  `dev0` and `dev1` are what was read from
/dev/urandom (0 if it was not), `seed` is made of process, user and time, `rand0`
and `rand1` are the numbers of `rand()`. -/
def random_open (dev0 dev1 seed rand0 rand1 : UInt64) : Random :=
  ⟨dev0 ^^^ (seed ^^^ rand0), dev1 ^^^ (seed ^^^ rand1)⟩

/-- random_xorshift128plus, random.c:57-66, and random_generate, random.c:68-75. -/
def random_generate (r : Random) : Random × UInt64 :=
  let a := r.seed0
  let b := r.seed1
  let a := a ^^^ (a <<< 23)
  let s1 := a ^^^ b ^^^ (a >>> 17) ^^^ (b >>> 26)
  (⟨b, s1⟩, s1 + b)

/-- `isalnum` in the C locale. -/
def isalnum (c : UInt8) : Bool :=
  (48 ≤ c && c ≤ 57) || (65 ≤ c && c ≤ 90) || (97 ≤ c && c ≤ 122)

/-- The inner loop of random_generate_alnum, random.c:85-93, over the bytes of one
number.  `data` is what was written so far to an array of `cap` bytes; the second
part tells if the function returns. -/
def alnum_loop (cap : Nat) (data_size : Int) : Bytes → Bytes → Res (Bytes × Bool)
  | [], data => .ok (data, false)
  | c :: rest, data =>
    if ! isalnum c then alnum_loop cap data_size rest data
    else if data.length < cap then
      let data := data ++ [c]
      if (data.length : Int) = data_size then .ok (data, true) else alnum_loop cap data_size rest data
    else .ub "write past the end of the array"

/-- random_generate_alnum, random.c:77-95.  `fuel` limits the numbers drawn. -/
def alnum_from (cap : Nat) (data_size : Int) : Nat → Random → Bytes → Res (Random × Bytes)
  | 0, _, _ => .abort "does not end"
  | fuel + 1, r, data =>
    let (r, rnd) := random_generate r
    (alnum_loop cap data_size (le 8 rnd.toNat) data).bind fun (data, done) =>
    if done then .ok (r, data) else alnum_from cap data_size fuel r data

/-- random_generate_alnum, random.c:77-95, called with an array of `cap` bytes. -/
def random_generate_alnum (fuel : Nat) (r : Random) (cap : Nat) (data_size : Int) : Res (Random × Bytes) :=
  alnum_from cap data_size fuel r []

/-- The end of parse_storage_create, main/command/parse_storage.c:204-215: the key
of a new storage, given if it has an encryption and the key in the command. -/
def storage_key (fuel : Nat) (r : Random) (encrypted : Bool) (key : Bytes) : Res (Random × Bytes) :=
  if encrypted then
    if key = [] then random_generate_alnum fuel r 32 32 else .ok (r, key)
  else .ok (r, key)

end Random
end Verif
