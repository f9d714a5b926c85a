import Verif.Model.Pack

/-! C77: what was compressed or encrypted is read back, other data is refused. -/
namespace Verif.C77
open Buf Pack

/-- A buffer that was used in any way: its block is as long as it says. -/
structure Used (b : Buf) : Prop where
  fin : b.fin = b.block.length
  pos : b.position ≤ b.fin
  small : b.fin < 2147483648

/-- The buffers of a reader. -/
structure Ready (r : Reader) : Prop where
  buf : Used r.buf
  dec : Used r.buf_decrypted
  unc : Used r.buf_decompressed

/-- Enough memory, always. -/
def Plenty (a : Alloc) : Prop := ∀ n, a.can n = true

/-- Reading: the bytes of the result, or why there are none. -/
def reads (L : Lib) (fuel : Nat) (a : Alloc) (comp : Option Codec) (key : Option Bytes) (r : Reader) (stored : Bytes)
    (size_origin events : Nat) : Res Bytes :=
  (reader_execute L fuel false a comp key r stored size_origin events).bind fun (_, x) => .ok (x.take size_origin)

/-- The first half of C77: whatever was packed, of a size that buffers can have, is read
back by every reader. -/
def Back (comp : Option Codec) (fits : Lib → Int → List Bytes → Prop) : Prop :=
  ∀ (L : Lib) (a a' : Alloc) (level : Int) (key : Option Bytes) (r0 r1 : Nat) (p : Packer) (argv : List Bytes)
    (p' : Packer) (stored : Bytes) (r : Reader) (size events : Nat),
  L.Reads → Plenty a' → Used p.compressed → Used p.encrypted → Ready r →
  fits L (if level > 0 then level else p.kept) argv →
  stored.length ≤ 1073741824 → argv.flatten.length ≤ 536870912 → 8 ≤ argv.flatten.length →
  size = argv.flatten.length → argv.flatten.take 8 = le 4 size ++ le 4 events → events < pow32 →
  pack L false a comp level key r0 r1 p argv = .ok (p', stored) →
  ∃ n, ∀ fuel, n ≤ fuel → reads L fuel a' comp key r stored size events = .ok argv.flatten

/-- The other half: whatever is stored, reading it ends, is defined, and depends on
nothing that was read before or happens to be in memory. -/
def Refuses : Prop :=
  ∀ (L : Lib) (comp : Option Codec) (key : Option Bytes) (stored : Bytes) (size events : Nat),
  L.Reads → stored ≠ [] → stored.length ≤ 1073741824 → size ≤ 536870912 →
  ∃ (n : Nat) (res : Res Bytes), (∀ s, res ≠ .ub s) ∧ (∀ s, res ≠ .abort s) ∧
    ∀ fuel a r, n ≤ fuel → Plenty a → Ready r → reads L fuel a comp key r stored size events = res

/-- C77 in full. -/
def Full : Prop := (∀ comp, Back comp fun _ _ _ => True) ∧ Refuses

end Verif.C77
