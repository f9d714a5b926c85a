import Verif.Model.Transfer
import Verif.Spec.C56

/-! C62: what is read back from the cloud is what was put there. -/
namespace Verif.C62
open Vfs Transfer

/-- The value of a text of digits. -/
def number (s : List Nat) : Nat := s.foldl (fun n c => n * 10 + (c - 48)) 0

/-- A `Range` header "bytes=first-last" as a server understands it (RFC 9110). -/
def understood (t : List Nat) : Option (Nat × Nat) :=
  match t with
  | 98 :: 121 :: 116 :: 101 :: 115 :: 61 :: t =>
    match t.dropWhile Lex.isDigit with
    | 45 :: l => if l.all Lex.isDigit then some (number (t.takeWhile Lex.isDigit), number l) else none
    | _ => none
  | _ => none

/-- The bytes a server sends for a request with a `Range` header: the part, at most
to the end of the object; nothing (status 416) if it begins behind the end; the
whole object if it does not understand the header or does not support ranges
(RFC 9110, 14.2: "A server MAY ignore the Range header field"). -/
def serve (ranges : Bool) (object : Bytes) (t : List Nat) : Option Bytes :=
  if ranges then
    match understood t with
    | some (a, b) => if a < object.length ∧ a ≤ b then some ((object.drop a).take (b + 1 - a)) else none
    | none => some object
  else some object

/-- The pieces are delivered by a connection for a body: all of it, or a prefix. -/
def Delivers (whole : Bool) (pieces : List Bytes) (body : Bytes) : Prop :=
  pieces.flatten <+: body ∧ (whole = true → pieces.flatten = body)

/-- Uploading: success means that the object is the file, and after a failure the
object is the old one or the file, never a part of it. -/
def Uploaded (object : Option Bytes) (file : Bytes) (r : Option Bytes × Code) : Prop :=
  (r.2 = .ok → r.1 = some file) ∧ (r.1 = object ∨ r.1 = some file)

/-- Downloading: success means that the file is the object. -/
def Downloaded (object : Bytes) (r : File × Code) : Prop :=
  r.2 = .ok → r.1.bytes = object ∧ r.1.size = object.length

/-- Reading a part: success means that the buffer has exactly that part. -/
def Read (object : Bytes) (size offset : Nat) (r : Bytes × Code) : Prop :=
  r.2 = .ok → r.1 = (object.drop offset).take size

/-- The full property. -/
def Full : Prop :=
  (∀ object file pieces reply, Uploaded object file (upload object file pieces reply)) ∧
  (∀ object whole pieces, Delivers whole (pieces.map (·.1)) object → Downloaded object (download whole pieces)) ∧
  (∀ ranges object size offset body whole pieces, 0 < size → size < 4294967296 → offset + size ≤ object.length →
    object.length < 18446744073709551616 →
    serve ranges object (range size offset) = some body → Delivers whole (pieces.map (·.1)) body →
    Read object size offset (read whole pieces))

/-- Nothing goes wrong in an upload: libcurl asks for at least a byte each time,
and the system answers with at least a byte as often as necessary. -/
def UploadFine (p : Nat × List Ans) : Prop := 0 < p.1 ∧ C56.Good p.2 ∧ p.1 ≤ C56.calls p.2

/-- Nothing goes wrong in a download. -/
def DownloadFine (p : Bytes × List Ans) : Prop := p.1 ≠ [] ∧ C56.Good p.2 ∧ p.1.length ≤ C56.calls p.2

end Verif.C62
