import Verif.Model.S3
import Verif.Spec.C45

/-! C57: a cloud request is signed and addressed for its object. -/
namespace Verif.C57
open S3

/-- The letter for six bits, RFC 4648 table 1. -/
def letter (n : Nat) : Nat :=
  if n < 26 then 65 + n else if n < 52 then 71 + n else if n < 62 then n - 4 else if n = 62 then 43 else 47

/-- Base 64, RFC 4648 section 4. -/
def base64 : List Nat → List Nat
  | [] => []
  | [a] => [letter (a / 4), letter (a % 4 * 16), 61, 61]
  | [a, b] => [letter (a / 4), letter (a % 4 * 16 + b / 16), letter (b % 16 * 4), 61]
  | a :: b :: c :: l => [letter (a / 4), letter (a % 4 * 16 + b / 16), letter (b % 16 * 4 + c / 64), letter (c % 64)] ++ base64 l

/-- A digest of the library. -/
def Digest (hmac : List Nat → List Nat → List Nat) : Prop := ∀ k t, (hmac k t).length = 20 ∧ ∀ b ∈ hmac k t, b < 256

/-- The path of an object: bucket and, for a partition, its number in 20 digits. -/
def path (u : Uuid) (id : Option Nat) : List Nat :=
  [47] ++ u.text ++ (match id with
    | some n => [47] ++ FileName.decPad 20 n
    | none => [])

/-- The request has the signature of its own text and the address of its object. -/
def Right (hmac : List Nat → List Nat → List Nat) (r : Req) : Prop :=
  prepare hmac r = .ok
    { authorization := [65, 87, 83, 32] ++ r.login ++ [58] ++ base64 (hmac r.password
        (r.method ++ [10, 10] ++ r.content_type ++ [10] ++ r.date ++ [10] ++ path r.uuid r.id))
      url := r.url ++ path r.uuid r.id }

/-- C57 in full. -/
def Full : Prop := ∀ hmac r, Digest hmac → Right hmac r

end Verif.C57
