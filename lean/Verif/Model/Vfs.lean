import Verif.Model.Bytes

/-! Model of the read and write loops of runtime/runtime/vfs.c and of
file_write, file_writev, file_read and file_pread of runtime/runtime/file.h.

The system calls are given as a list of answers.  The kernel transfers at most
0x7ffff000 bytes in a call, so that their results fit the `int` they are assigned
to. -/
namespace Verif.Vfs

/-- The answer of a system call: interrupted by a signal (`errno` EINTR), another
error, or a number of bytes transferred (never more than asked for or, for reads,
than there are). -/
inductive Ans where
  | eintr
  | error
  | bytes (n : Nat)
deriving Repr, DecidableEq

/-- The result of a function: it returned -1, it returned a size, or it still
waits for a call. -/
inductive Ret where
  | failed
  | done (size : Nat)
  | waiting
deriving Repr, DecidableEq

/-- The largest transfer of one call, MAX_RW_COUNT of the kernel. -/
def maxRw : Nat := 2147479552

/-- The loop of vfs_write, vfs.c:139-154, with `n` bytes written: the new bytes in
the file and the result. -/
def writeLoop (data : Bytes) (n : Nat) : List Ans → Bytes × Ret
  | [] => ([], .waiting)
  | .eintr :: l => writeLoop data n l
  | .error :: _ => ([], .failed)
  | .bytes k :: l =>
    let r := min k (min maxRw (data.length - n))
    if r = 0 then ([], .failed)
    else
      let x := (data.drop n).take r
      if n + r = data.length then (x, .done (n + r))
      else (x ++ (writeLoop data (n + r) l).1, (writeLoop data (n + r) l).2)

/-- vfs_write, vfs.c:139-154. -/
def write (data : Bytes) (l : List Ans) : Bytes × Ret := writeLoop data 0 l

/-- The loop of vfs_pread, vfs.c:122-137, with `n` bytes read; vfs_read
(vfs.c:105-120) is the same at the position of the descriptor. -/
def preadLoop (file : Bytes) (off size : Nat) (n : Nat) : List Ans → Bytes × Ret
  | [] => ([], .waiting)
  | .eintr :: l => preadLoop file off size n l
  | .error :: _ => ([], .failed)
  | .bytes k :: l =>
    let r := min k (min maxRw (min (size - n) (file.length - (off + n))))
    if r = 0 then ([], .failed)
    else
      let x := (file.drop (off + n)).take r
      if n + r = size then (x, .done (n + r))
      else (x ++ (preadLoop file off size (n + r) l).1, (preadLoop file off size (n + r) l).2)

/-- vfs_pread, vfs.c:122-137. -/
def pread (file : Bytes) (off size : Nat) (l : List Ans) : Bytes × Ret := preadLoop file off size 0 l

/-- The inner loop of vfs_writev, vfs.c:187-196: `r` bytes were written, what is
left of the vector. -/
def advance : List Bytes → Nat → List Bytes
  | [], _ => []
  | v :: vs, r => if v.length > r then v.drop r :: vs else advance vs (r - v.length)

/-- The loop of vfs_writev, vfs.c:173-200, with `size` bytes written. -/
def writevLoop (v : List Bytes) (size : Nat) : List Ans → Bytes × Ret
  | [] => ([], .waiting)
  | .eintr :: l => writevLoop v size l
  | .error :: _ => ([], .failed)
  | .bytes k :: l =>
    let r := min k (min maxRw v.flatten.length)
    let x := v.flatten.take r
    let v' := advance v r
    if v' = [] then (x, .done (size + r))
    else (x ++ (writevLoop v' (size + r) l).1, (writevLoop v' (size + r) l).2)

/-- vfs_writev, vfs.c:173-200. -/
def writev (v : List Bytes) (l : List Ans) : Bytes × Ret := writevLoop v 0 l

/-- The part of an open file that writing uses (`struct File`, file.h:18-24): all
bytes in it (the descriptor is at the end) and the field `size`. -/
structure File where
  bytes : Bytes
  size : Nat
deriving Repr, DecidableEq

/-- The result of a call that may throw. -/
inductive Thrown where
  | no
  | yes
  | waiting
deriving Repr, DecidableEq

/-- file_write, file.h:185-192. -/
def file_write (f : File) (data : Bytes) (l : List Ans) : File × Thrown :=
  match write data l with
  | (x, .done n) => ({ bytes := f.bytes ++ x, size := f.size + n }, .no)
  | (x, .failed) => ({ f with bytes := f.bytes ++ x }, .yes)
  | (x, .waiting) => ({ f with bytes := f.bytes ++ x }, .waiting)

/-- IOV_MAX on Linux. -/
def iovMax : Nat := 1024

/-- The loop of file_writev, file.h:200-218; `ls` are the answers for each call of
vfs_writev. -/
def file_writev (f : File) (v : List Bytes) : List (List Ans) → File × Thrown
  | [] => if v = [] then (f, .no) else (f, .waiting)
  | l :: ls =>
    if v = [] then (f, .no)
    else
      match writev (v.take iovMax) l with
      | (x, .done n) => file_writev { bytes := f.bytes ++ x, size := f.size + n } (v.drop iovMax) ls
      | (x, .failed) => ({ f with bytes := f.bytes ++ x }, .yes)
      | (x, .waiting) => ({ f with bytes := f.bytes ++ x }, .waiting)

end Verif.Vfs
