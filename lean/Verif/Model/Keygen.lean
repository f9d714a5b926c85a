import Verif.Model.Random
import Verif.Model.Uuid

/-! Model of what CREATE STORAGE draws from the random numbers: the uuid of the storage,
which names its directory and its objects in the cloud, and the encryption key. -/
namespace Verif
namespace Random

/-- uuid_generate, runtime/lib/uuid.c:37-42. -/
def uuid_generate (r : Random) : Random × Uuid :=
  let (r, a) := random_generate r
  let (r, b) := random_generate r
  (r, ⟨a.toNat, b.toNat⟩)

/-- Numbers drawn by others and not seen. -/
def pass : Nat → Random → Random
  | 0, r => r
  | n + 1, r => pass n (random_generate r).1

/-- parse_storage_create, main/command/parse_storage.c:165-219, the numbers it draws: the
uuid (186-189), and the key if there is an encryption and no key in the options
(204-215).  Between the two, other threads draw `others` numbers from the same random
manager (each call of random_generate is under its lock, random.c:68-75); while the key is
made they draw none.  The options have no uuid, which would be put in place of this one
(parse_storage.c:53-58). -/
def storage_create (fuel others : Nat) (r : Random) (encrypted : Bool) (key : Bytes) : Res (Random × Uuid × Bytes) :=
  let (r, uuid) := uuid_generate r
  (storage_key fuel (pass others r) encrypted key).bind fun (r, key) => .ok (r, uuid, key)

end Random
end Verif
