import Verif.Model.Buf

/-! C67: buffers grow and keep what was put into them. -/
namespace Verif.C67
open Buf

/-- What is done with a buffer. -/
inductive Op where
  | write (data : Bytes)
  | fill (size : Nat) (data : Bytes)
  | truncate (n : Nat)
  | reset

/-- Nobody puts more than there was asked space for, or takes away more than there is. -/
def Allowed (c : Bytes) : Op → Prop
  | .write _ => True
  | .fill size data => data.length ≤ size
  | .truncate n => n ≤ c.length
  | .reset => True

/-- What the buffer has then. -/
def after (c : Bytes) : Op → Bytes
  | .write data => c ++ data
  | .fill _ data => c ++ data
  | .truncate n => c.take (c.length - n)
  | .reset => []

/-- The space that is needed. -/
def room (c : Bytes) : Op → Nat
  | .write data => c.length + data.length
  | .fill size _ => c.length + size
  | _ => 0

/-- The code. -/
def step (a : Alloc) (b : Buf) : Op → Res Buf
  | .write data => buf_write a b data
  | .fill size data => buf_fill a b (wrapS32 size) data
  | .truncate n => buf_truncate b n
  | .reset => .ok (buf_reset b)

/-- Buffers after any use, with what they should have; an operation that fails
leaves the buffer as it was. `ok` restricts the operations. -/
inductive Reach (ok : Bytes → Op → Prop) : Buf → Bytes → Prop
  | init : Reach ok buf_init []
  | step (a b c op b') : Reach ok b c → Allowed c op → ok c op → step a b op = .ok b' → Reach ok b' (after c op)

/-- The next operation does what it should or fails because there is no memory. -/
def Safe (b : Buf) (op : Op) : Prop :=
  ∀ a : Alloc, (∃ b', step a b op = .ok b') ∨ ((∃ e, step a b op = .err e) ∧ ∃ n, a.can n = false)

/-- What is done with a vector of pieces. -/
inductive VOp where
  | add (pointer : Nat) (size : Nat)
  | reset

/-- Its pieces then. -/
def vafter (l : List Iovec) : VOp → List Iovec
  | .add pointer size => l ++ [⟨pointer, size⟩]
  | .reset => []

/-- The code. -/
def vstep (a : Alloc) (v : Iov) : VOp → Res Iov
  | .add pointer size => iov_add a v pointer (wrapS32 size)
  | .reset => .ok (iov_reset v)

/-- Pointers have 64 bits. -/
def VAllowed : VOp → Prop
  | .add pointer _ => pointer < pow64
  | .reset => True

/-- Vectors after any use, with the pieces they should have. -/
inductive VReach (ok : List Iovec → VOp → Prop) : Iov → List Iovec → Prop
  | init : VReach ok iov_init []
  | step (a v l op v') : VReach ok v l → VAllowed op → ok l op → vstep a v op = .ok v' → VReach ok v' (vafter l op)

/-- The next one does what it should or fails because there is no memory. -/
def VSafe (v : Iov) (op : VOp) : Prop :=
  ∀ a : Alloc, (∃ v', vstep a v op = .ok v') ∨ ((∃ e, vstep a v op = .err e) ∧ ∃ n, a.can n = false)

/-- The pieces as they are read. -/
def pieces (v : Iov) : List (Res Iovec) := (List.range v.iov_count.toNat).map (iov_at v)

/-- Both for the operations that a restriction lets pass. -/
def FullFor (ok : Bytes → Op → Prop) (vok : List Iovec → VOp → Prop) : Prop :=
  (∀ b c, Reach ok b c → buf_str b = .ok c ∧ buf_size b = c.length ∧ ∀ op, Allowed c op → ok c op → Safe b op) ∧
  ∀ v l, VReach vok v l → pieces v = l.map .ok ∧ v.iov_count = l.length ∧ ∀ op, VAllowed op → vok l op → VSafe v op

/-- C67 in full: for all operations. -/
def Full : Prop := FullFor (fun _ _ => True) (fun _ _ => True)

/-- Below 2^30 bytes. -/
def Small (c : Bytes) (op : Op) : Prop := room c op ≤ 1073741824

/-- Fewer than 2^26 pieces that are together smaller than 2^31 bytes. -/
def VSmall (l : List Iovec) : VOp → Prop
  | .add _ size => l.length < 67108864 ∧ (l.map (·.len)).sum + size < pow31
  | .reset => True

end Verif.C67
