import Verif.Model.Uuid
import Verif.Model.FileName

/-! Model of the preparation of a request in cloud/s3/s3_request.c.  Characters
are byte values. -/
namespace Verif.S3

/-- `chars` of s3_request_encode_base64, s3_request.c:30-31. -/
def chars : List Nat :=
  [65, 66, 67, 68, 69, 70, 71, 72, 73, 74, 75, 76, 77, 78, 79, 80, 81, 82, 83, 84, 85, 86, 87, 88, 89, 90,
   97, 98, 99, 100, 101, 102, 103, 104, 105, 106, 107, 108, 109, 110, 111, 112, 113, 114, 115, 116, 117, 118, 119, 120, 121, 122,
   48, 49, 50, 51, 52, 53, 54, 55, 56, 57, 43, 47]

/-- `chars[i]`. -/
def char (i : Nat) : Res Nat :=
  match chars[i]? with
  | some c => .ok c
  | none => .ub "index out of range"

/-- `digest[j++] = c` into an array of `room` bytes of which `out` is filled. -/
def put (room : Nat) (out : List Nat) (c : Nat) : Res (List Nat) :=
  if out.length < room then .ok (out ++ [c]) else .ub "s3_request_encode_base64: write past the array"

/-- `digest[j++] = chars[i & 0x3F]`. -/
def put6 (room : Nat) (out : List Nat) (i : Nat) : Res (List Nat) := (char (i &&& 63)).bind (put room out)

/-- The loop of s3_request_encode_base64, s3_request.c:35-46 (`v` has at most 24
bits). -/
def loop (room : Nat) : Nat → Nat → List Nat → List Nat → Res (Nat × List Nat)
  | _, v, out, [] => .ok (v, out)
  | i, v, out, d :: ds =>
    let v := (v <<< 8) ||| d
    if i % 3 = 2 then
      (put6 room out (v >>> 18)).bind fun out => (put6 room out (v >>> 12)).bind fun out =>
      (put6 room out (v >>> 6)).bind fun out => (put6 room out v).bind fun out =>
      loop room (i + 1) 0 out ds
    else loop room (i + 1) v out ds

/-- s3_request_encode_base64, s3_request.c:26-52, for an array of `room` bytes. -/
def encode (room : Nat) (digest : List Nat) : Res (List Nat) :=
  (loop room 0 0 [] digest).bind fun (v, out) =>
  (put6 room out (v >>> 10)).bind fun out => (put6 room out (v >>> 4)).bind fun out =>
  (put6 room out (v <<< 2)).bind fun out => (put room out 61).bind fun out => put room out 0

/-- What a request is made from: the parts of CloudConfig
(cloud/cloud/cloud_config.h:28-36) and of S3Request (s3_request.h:18-33). -/
structure Req where
  url : List Nat
  login : List Nat
  password : List Nat
  method : List Nat
  content_type : List Nat
  date : List Nat
  uuid : Uuid
  id : Option Nat

/-- The fields of S3Request filled in, s3_request.h:18-33. -/
structure Prepared where
  authorization : List Nat
  url : List Nat
deriving Repr, DecidableEq

/-- snprintf into an array of `size` bytes: the text is cut. -/
def snprintf (size : Nat) (text : List Nat) : List Nat := text.take (size - 1)

/-- The string at the start of an array: up to the first NUL. -/
def cstring (l : List Nat) : List Nat := l.takeWhile (· ≠ 0)

/-- The object, `"/%s/%020" PRIu64`, or `"/%s"` for a bucket, s3_request.c:78-107. -/
def object (r : Req) : List Nat :=
  [47] ++ Uuid.text r.uuid ++ (match r.id with
    | some id => [47] ++ FileName.decPad 20 id
    | none => [])

/-- `header`, s3_request.c:69-105: at most 256 bytes (the method, type and date
are short). -/
def header (r : Req) : List Nat :=
  r.method ++ [10, 10] ++ r.content_type ++ [10] ++ r.date ++ [10] ++ object r

/-- s3_request_prepare, s3_request.c:54-129.  `hmac` is HMAC-SHA1 of the library:
20 bytes for a key and a text. -/
def prepare (hmac : List Nat → List Nat → List Nat) (r : Req) : Res Prepared :=
  (encode 28 (hmac r.password (header r))).bind fun digest_base64 =>
  .ok { authorization := snprintf 256 ([65, 87, 83, 32] ++ r.login ++ [58] ++ cstring digest_base64)
        url := snprintf 1024 (r.url ++ object r) }

end Verif.S3
