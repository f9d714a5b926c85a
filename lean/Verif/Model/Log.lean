import Verif.Model.Decode

/-! Model of formatted output: runtime/runtime/logger.c, error.h, log.h and
buf_vprintf in buf.h.  The text that a format string gives is a parameter (it is
what `snprintf` would write into a buffer without limit); texts of 2^31 bytes
and more, for which `snprintf` fails, are left out. -/
namespace Verif
namespace Log
open Data Decode

/-- Bytes are stored to a `char` array at an offset. -/
def store (buf : Bytes) (pos : Nat) (s : Bytes) : Res Bytes :=
  if pos + s.length ≤ buf.length then .ok (buf.take pos ++ s ++ buf.drop (pos + s.length))
  else .ub "write past the end of the buffer"

/-- Bytes are read from a `char` array from its start. -/
def load (buf : Bytes) (n : Nat) : Res Bytes :=
  if n ≤ buf.length then .ok (buf.take n) else .ub "read past the end of the buffer"

/-- `snprintf(buf + pos, n, ...)` and `vsnprintf` for a text: the buffer and the
number returned, which is the size of the text whether it fits or not. -/
def snprintf (buf : Bytes) (pos n : Nat) (s : Bytes) : Res (Bytes × Nat) :=
  if n = 0 then .ok (buf, s.length)
  else (store buf pos (s.take (n - 1) ++ [0])).bind fun buf => .ok (buf, s.length)

/-- `strftime(buf + pos, n, ...)`: 0 when the text does not fit. -/
def strftime (buf : Bytes) (pos n : Nat) (s : Bytes) : Res (Bytes × Nat) :=
  if s.length + 1 ≤ n then (store buf pos (s ++ [0])).bind fun buf => .ok (buf, s.length)
  else .ok (buf, 0)

/-- `struct Logger`, logger.h:18-23; `fd` is whether a file is open. -/
structure Logger where
  enable : Bool
  to_stdout : Bool
  fd : Bool

/-- logger_init, logger.c:29-35. -/
def logger_init : Logger := { enable := true, to_stdout := true, fd := false }

/-- Where a line is written. -/
inductive Out where
  | file (b : Bytes)
  | stdout (b : Bytes)
deriving Repr, DecidableEq

/-- A digit. -/
def digit (n : Nat) : UInt8 := UInt8.ofNat (48 + n % 10)

/-- `"%03d "` of `tv_usec / 1000`, which is below 1000. -/
def millis (usec : Nat) : Bytes :=
  let ms := usec / 1000
  [digit (ms / 100), digit (ms / 10), digit ms, 32]

/-- `sizeof(buffer) - len`, a `size_t`; `len` is an `int`. -/
def left (len : Nat) : Nat := wrapU64 (1024 - (len : Int))

/-- logger_write, logger.c:57-97.  `date` is the text of strftime, `msg` that of
the message, `stack` what `buffer` has at first.  Errors of vfs_write are
ignored. -/
def logger_write (l : Logger) (stack date : Bytes) (usec : Nat) (pfx : Option Bytes) (msg : Bytes) : Res (List Out) :=
  if ! l.enable then .ok []
  else
    (strftime stack 0 (left 0) date).bind fun (buffer, n) =>
    let len := n
    (snprintf buffer len (left len) (millis usec)).bind fun (buffer, n) =>
    let len := len + n
    (match pfx with
     | some p => snprintf buffer len (left len) p
     | none => .ok (buffer, 0)).bind fun (buffer, n) =>
    let len := len + n
    (snprintf buffer len (left len) msg).bind fun (buffer, n) =>
    let len := len + n
    (snprintf buffer len (left len) [10]).bind fun (buffer, n) =>
    let len := len + n
    (if l.fd then (load buffer len).bind fun b => .ok [Out.file b] else .ok []).bind fun out =>
    (if l.to_stdout then (load buffer len).bind fun b => .ok (out ++ [Out.stdout b]) else .ok out)

/-- log_at, log.h:23-36. -/
def log_at (l : Logger) (stack date : Bytes) (usec : Nat) (msg : Bytes) : Res (List Out) :=
  logger_write l stack date usec (some []) msg

/-- `struct Error`, error.h:18-27, its text: an array of 256 bytes and `text_len`. -/
structure Error where
  text : Bytes
  text_len : Nat

/-- error_throw_as, error.h:49-74: the message is written to the log and to
`text`; where it is thrown to is the subject of C50. -/
def error_throw_as (e : Error) (l : Logger) (stack date : Bytes) (usec : Nat) (msg : Bytes) : Res (List Out × Error) :=
  (logger_write l stack date usec (some (cstr "error: ")) msg).bind fun out =>
  (snprintf e.text 0 256 msg).bind fun (text, n) =>
  .ok (out, { text := text, text_len := n })

/-- monotone_error, main/api/monotone.c:115-120: a C string. -/
def monotone_error (e : Error) : Res Bytes :=
  if e.text.contains 0 then .ok (e.text.takeWhile (· != 0)) else .ub "no end of the text"

/-- buf_vprintf, buf.h:143-150: what is added to the buffer. -/
def buf_vprintf (stack msg : Bytes) : Res Bytes :=
  (snprintf stack 0 1024 msg).bind fun (tmp, n) => load tmp n

/-- The message of execute_show_op for a name that is not found, execute.c:81-82. -/
def show_not_found (name : Bytes) : Bytes := cstr "SHOW name: '" ++ name ++ cstr "' not found"

end Log
end Verif
