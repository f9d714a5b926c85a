import Verif.Model.Vfs

/-! C56: reads and writes of files are complete or fail. -/
namespace Verif.C56
open Vfs

/-- No call fails: every answer is an interruption or at least one byte. -/
def Good (l : List Ans) : Prop := ∀ a ∈ l, a ≠ .error ∧ a ≠ .bytes 0

/-- The number of calls that were not interrupted. -/
def calls : List Ans → Nat
  | [] => 0
  | .eintr :: l => calls l
  | _ :: l => calls l + 1

/-- A transfer of `data`: what was transferred is a prefix of it; success means
all of it; it fails only if a call failed, and it ends. -/
def Complete (data : Bytes) (l : List Ans) (r : Bytes × Ret) : Prop :=
  r.1 <+: data ∧
  match r.2 with
  | .done n => r.1 = data ∧ n = data.length
  | .failed => ¬ Good l
  | .waiting => Good l → calls l < max 1 data.length

/-- The same for reads; they may also fail because the file ends. -/
def CompleteRead (file : Bytes) (off size : Nat) (l : List Ans) (r : Bytes × Ret) : Prop :=
  r.1 <+: (file.drop off).take size ∧
  match r.2 with
  | .done n => r.1 = (file.drop off).take size ∧ n = size ∧ r.1.length = size
  | .failed => ¬ Good l ∨ file.length < off + size
  | .waiting => Good l → calls l < max 1 size

/-- A write to an open file: without an error the bytes are at the end of the
file; in any case the recorded size is the size of the file. -/
def Recorded (f : File) (data : Bytes) (r : File × Thrown) : Prop :=
  (r.2 = .no → r.1.bytes = f.bytes ++ data) ∧ (r.2 ≠ .waiting → r.1.size = r.1.bytes.length)

/-- C56 in full. -/
def Full : Prop :=
  (∀ data l, Complete data l (write data l)) ∧
  (∀ file off size l, CompleteRead file off size l (pread file off size l)) ∧
  (∀ v l, Complete v.flatten l (writev v l)) ∧
  (∀ f data l, f.size = f.bytes.length → Recorded f data (file_write f data l)) ∧
  (∀ f v ls, f.size = f.bytes.length → Recorded f v.flatten (file_writev f v ls))

end Verif.C56
