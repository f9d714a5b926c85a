import Verif.Model.Vfs
import Verif.Model.S3
import Verif.Model.Lex

/-!
Model of the transfers of cloud/s3/s3_op.c: uploading and downloading partition
files, reading a part of an object, with the callbacks that libcurl calls.

libcurl and the server are given by what they do: how many bytes they take or
deliver at a time, whether a connection breaks, and what the server answers.
-/
namespace Verif.Transfer
open Vfs

/-- How a request ends for s3_request_execute (cloud/s3/s3_request.c:169-269):
without an error, with a thrown one, or not yet. -/
inductive Code where
  | ok
  | failed
  | waiting
deriving Repr, DecidableEq

/-- s3_op_upload_cb, cloud/s3/s3_op.c:55-74: the bytes given to libcurl and the new
`file_offset`; `limit` is the size of libcurl's buffer, `l` the answers of the
system.  The descriptor is at `offset` (a failed read ends the transfer).  No
bytes mean that the callback returned 0; `none` that it waits. -/
def upload_cb (file : Bytes) (size offset limit : Nat) (l : List Ans) : Option (Bytes × Nat) :=
  let left := size - offset
  let n := if left < limit then left else limit
  match pread file offset n l with
  | (x, .done _) => some (x, offset + n)
  | (_, .failed) => some ([], offset)
  | (_, .waiting) => none

/-- libcurl sending a body of CURLOPT_INFILESIZE_LARGE bytes: it calls the callback
until it has them all; a callback that returns 0 before ends the request with an
error.  Answers: the body sent, and how it ended. -/
def uploadLoop (file : Bytes) (size offset : Nat) : List (Nat × List Ans) → Bytes × Code
  | [] => ([], .waiting)
  | (limit, l) :: rest =>
    match upload_cb file size offset limit l with
    | none => ([], .waiting)
    | some (x, offset') =>
      if x = [] then ([], .failed)
      else if offset' = size then (x, .ok)
      else (x ++ (uploadLoop file size offset' rest).1, (uploadLoop file size offset' rest).2)

/-- What happens to a request that was sent. -/
inductive Reply where
  /-- the server does it and says so -/
  | done
  /-- the server refuses (HTTP status 400 and more; CURLOPT_FAILONERROR,
  s3_request.c:210) -/
  | refused
  /-- the server does it but its answer does not arrive -/
  | lost
deriving Repr, DecidableEq

/-- s3_op_upload, cloud/s3/s3_op.c:76-102, and s3_request_execute.  `size` is what
file_open found (runtime/runtime/file.h:52-59); a file of size 0 is sent without
a body (s3_request.c:216).  Without all bytes the server stores nothing.  Answers:
the object after it, and the code. -/
def upload (object : Option Bytes) (file : Bytes) (pieces : List (Nat × List Ans)) (reply : Reply) : Option Bytes × Code :=
  let body := if file.length = 0 then ([], .ok) else uploadLoop file file.length 0 pieces
  match body with
  | (x, .ok) =>
    match reply with
    | .done => (some x, .ok)
    | .refused => (object, .failed)
    | .lost => (some x, .failed)
  | (_, c) => (object, c)

/-- s3_op_download_cb, cloud/s3/s3_op.c:23-31, with file_write_nothrow
(runtime/runtime/file.h:175-183): the file after it, and the bytes it says it
took; `none` means that it waits. -/
def download_cb (f : File) (data : Bytes) (l : List Ans) : File × Option Nat :=
  match write data l with
  | (x, .done n) => ({ bytes := f.bytes ++ x, size := f.size + n }, some n)
  | (x, .failed) => ({ f with bytes := f.bytes ++ x }, some 0)
  | (x, .waiting) => ({ f with bytes := f.bytes ++ x }, none)

/-- libcurl delivering a body in pieces; a callback that takes less than it was
given ends the request with an error.  `whole`: the connection lasts until the
end of the body. -/
def downloadLoop (f : File) (whole : Bool) : List (Bytes × List Ans) → File × Code
  | [] => (f, if whole then .ok else .failed)
  | (data, l) :: rest =>
    match download_cb f data l with
    | (f', none) => (f', .waiting)
    | (f', some n) => if n = data.length then downloadLoop f' whole rest else (f', .failed)

/-- s3_op_download, cloud/s3/s3_op.c:33-53, into the new file of s3_download
(cloud/s3/s3.c:115-150, which removes a leftover first). -/
def download (whole : Bool) (pieces : List (Bytes × List Ans)) : File × Code :=
  downloadLoop { bytes := [], size := 0 } whole pieces

/-- `%" PRIu64 "`. -/
def dec (n : Nat) : List Nat := if n < 10 then [48 + n] else dec (n / 10) ++ [48 + n % 10]

/-- The header of s3_op_read, cloud/s3/s3_op.c:147-149: `size` is 32 bits, `offset`
64 bits, and `size - 1` is computed in 32 bits. -/
def range (size offset : Nat) : List Nat :=
  S3.snprintf 128 (Lex.bytes "bytes=" ++ dec offset ++ Lex.bytes "-" ++
    dec (wrapU64 (offset + wrapU32 ((size : Int) - 1))))

/-- s3_op_read_cb, cloud/s3/s3_op.c:126-137, called for each piece: `room` says
whether buf_write gets memory. -/
def readLoop (buf : Bytes) (whole : Bool) : List (Bytes × Bool) → Bytes × Code
  | [] => (buf, if whole then .ok else .failed)
  | (data, room) :: rest =>
    if room ∨ data = [] then readLoop (buf ++ data) whole rest else (buf, .failed)

/-- s3_op_read, cloud/s3/s3_op.c:139-167, for the empty buffer of reader_execute
(engine/io/reader.h:87-106). -/
def read (whole : Bool) (pieces : List (Bytes × Bool)) : Bytes × Code := readLoop [] whole pieces

end Verif.Transfer
