import Verif.Model.Basic
import Verif.Model.Bytes
import Verif.Model.Decode

/-! The texts of the program: the format string and the arguments of every call of
`error`, `log`, `snprintf`, `buf_printf`, `fprintf`, of the fs_ functions, of
`file_import` and of `source_pathfmt` (throw.h:27-50, error.h:58-72, buf.h:143-160,
fs.h:16-80, file.h:267-290, source.h:331-340).  They all end in `vsnprintf` of the C
library (C11 7.21.6.1), which is modelled here for the conversions that the program
uses.  What is cut off by a buffer that is too small is the matter of Log.lean and
Paths.lean.

Simplified: digits of a `double` and of an address are given by the caller of the
model, they are up to the C library; a precision for a number, and flags other than
`-` and `0`, do not occur in the program and are taken as undefined. -/

namespace Verif.Messages

/-- An argument of a function with a variable number of arguments, after the default
promotions.  `str` is a pointer and the bytes that may be read from there, none for
NULL. -/
inductive Arg where
  | int (v : Int)
  | uint (n : Nat)
  | long (v : Int)
  | ulong (n : Nat)
  | str (mem : Option Bytes)
  | double (fixed : Nat → Bytes)
  | ptr (text : Bytes)

/-- The precision of a conversion: the characters `.`, then `*` or a number. -/
inductive Prec where
  | none | star | num (n : Nat)
  deriving DecidableEq

/-- A conversion: the flags, the width, the precision, the `l` and the letter.  `phase`
says how far it was read: flags, width, precision, length. -/
structure Conv where
  phase : Nat := 0
  minus : Bool := false
  zero : Bool := false
  width : Nat := 0
  prec : Prec := .none
  long : Bool := false
  letter : UInt8 := 0
  deriving DecidableEq

/-- A part of a format. -/
inductive Tok where
  | lit (c : UInt8)
  | conv (s : Conv)
  | bad
  deriving DecidableEq

/-- The parts of a format (C11 7.21.6.1, paragraphs 3 to 8), with the conversion
that is being read. -/
def tokens : Option Conv → Bytes → List Tok
  | none, [] => []
  | some _, [] => [.bad]
  | none, c :: r => if c = 37 then tokens (some {}) r else .lit c :: tokens none r
  | some s, c :: r =>
    if c = 37 then (if s = {} then .lit 37 else .bad) :: tokens none r
    else if c = 45 ∧ s.phase = 0 then tokens (some { s with minus := true }) r
    else if c = 48 ∧ s.phase = 0 then tokens (some { s with zero := true }) r
    else if 48 ≤ c ∧ c ≤ 57 ∧ s.phase ≤ 1 then
      tokens (some { s with phase := 1, width := 10 * s.width + (c.toNat - 48) }) r
    else if c = 46 ∧ s.phase ≤ 1 then tokens (some { s with phase := 2, prec := .num 0 }) r
    else if c = 42 ∧ s.phase = 2 then tokens (some { s with phase := 3, prec := .star }) r
    else if 48 ≤ c ∧ c ≤ 57 ∧ s.phase = 2 then
      tokens (some { s with prec := match s.prec with
        | .num n => .num (10 * n + (c.toNat - 48)) | p => p }) r
    else if c = 108 ∧ s.phase ≤ 3 then tokens (some { s with phase := 4, long := true }) r
    else .conv { s with phase := 0, letter := c } :: tokens none r

/-- One digit of a number. -/
def digit (d : Nat) : UInt8 := UInt8.ofNat (if d < 10 then 48 + d else 87 + d)

/-- The digits of `n`, at least one. -/
def digitsFuel (b : Nat) : Nat → Nat → Bytes
  | 0, _ => []
  | k + 1, n => if n < b then [digit n] else digitsFuel b k (n / b) ++ [digit (n % b)]

/-- The digits of `n` in base `b`. -/
def digits (b n : Nat) : Bytes := digitsFuel b (n + 1) n

/-- A `char*` read by `%s`: up to the zero byte, or to the precision.  To read
behind the memory it points to is undefined. -/
def chars : Bytes → Option Nat → Res Bytes
  | _, some 0 => .ok []
  | [], _ => .ub "%s reads behind the end of an array"
  | c :: m, p => if c = 0 then .ok [] else (chars m (p.map (· - 1))).map (c :: ·)

/-- `va_arg(args, int)`: an `unsigned` is taken if its value is an `int`
(C11 7.16.1.1, paragraph 2). -/
def takeInt : List Arg → Res (Int × List Arg)
  | .int v :: r => .ok (v, r)
  | .uint n :: r => if n < 2147483648 then .ok (n, r) else .ub "unsigned for int"
  | _ => .ub "no int"

/-- `va_arg(args, unsigned)`. -/
def takeUint : List Arg → Res (Nat × List Arg)
  | .uint n :: r => .ok (n, r)
  | .int v :: r => if 0 ≤ v then .ok (v.toNat, r) else .ub "int for unsigned"
  | _ => .ub "no unsigned"

/-- `va_arg(args, long)`. -/
def takeLong : List Arg → Res (Int × List Arg)
  | .long v :: r => .ok (v, r)
  | .ulong n :: r => if n < 9223372036854775808 then .ok (n, r) else .ub "unsigned long for long"
  | _ => .ub "no long"

/-- `va_arg(args, unsigned long)`. -/
def takeUlong : List Arg → Res (Nat × List Arg)
  | .ulong n :: r => .ok (n, r)
  | .long v :: r => if 0 ≤ v then .ok (v.toNat, r) else .ub "long for unsigned long"
  | _ => .ub "no unsigned long"

/-- `va_arg(args, char*)` and what is read from there.  NULL is undefined, but for
a precision of zero, where the C libraries read nothing. -/
def takeStr (p : Option Nat) : List Arg → Res (Bytes × List Arg)
  | .str (some m) :: r => (chars m p).map (·, r)
  | .str none :: r => if p = some 0 then .ok ([], r) else .ub "%s of NULL"
  | _ => .ub "no pointer"

/-- A text brought to the width: spaces after it with `-`, else before it. -/
def pad (s : Conv) (t : Bytes) : Bytes :=
  let fill := List.replicate (s.width - t.length) (32 : UInt8)
  if s.minus then t ++ fill else fill ++ t

/-- A number brought to the width: with `0` and without `-`, zeros between the
sign and the digits. -/
def padNum (s : Conv) (sign ds : Bytes) : Bytes :=
  if s.zero ∧ s.minus = false then
    sign ++ List.replicate (s.width - (sign ++ ds).length) 48 ++ ds
  else pad s (sign ++ ds)

/-- A signed number. -/
def signedText (s : Conv) (v : Int) : Bytes :=
  if v < 0 then padNum s [45] (digits 10 v.natAbs) else padNum s [] (digits 10 v.natAbs)

/-- The precision of `%s`: `*` takes it from the arguments, a negative one is none. -/
def precOf (s : Conv) (args : List Arg) : Res (Option Nat × List Arg) :=
  match s.prec with
  | .none => .ok (none, args)
  | .num n => .ok (some n, args)
  | .star => (takeInt args).map fun (v, r) => (if v < 0 then none else some v.toNat, r)

/-- One conversion: its text and the arguments that are left. -/
def conv1 (s : Conv) (args : List Arg) : Res (Bytes × List Arg) :=
  if s.letter = 115 ∧ s.long = false then
    (precOf s args).bind fun (p, r) => (takeStr p r).map fun (t, r) => (pad s t, r)
  else if s.letter = 102 ∧ s.long = false then
    match s.prec, args with
    | .none, .double f :: r => .ok (pad s (f 6), r)
    | .num n, .double f :: r => .ok (pad s (f n), r)
    | _, _ => .ub "no double"
  else if s.letter = 112 ∧ s.long = false then
    match args with
    | .ptr t :: r => .ok (pad s t, r)
    | _ => .ub "no pointer"
  else if s.prec ≠ .none then .ub "precision of a number"
  else if s.letter = 100 ∨ s.letter = 105 then
    (if s.long then takeLong args else takeInt args).map fun (v, r) => (signedText s v, r)
  else if s.letter = 117 then
    (if s.long then takeUlong args else takeUint args).map fun (n, r) => (padNum s [] (digits 10 n), r)
  else if s.letter = 120 then
    (if s.long then takeUlong args else takeUint args).map fun (n, r) => (padNum s [] (digits 16 n), r)
  else .ub "unknown conversion"

/-- The text of a format that was read.  Arguments that are left are ignored
(C11 7.21.6.1, paragraph 2). -/
def render : List Tok → List Arg → Res Bytes
  | [], _ => .ok []
  | .lit c :: ts, args => (render ts args).map (c :: ·)
  | .conv s :: ts, args =>
    (conv1 s args).bind fun (t, r) => (render ts r).map (t ++ ·)
  | .bad :: _, _ => .ub "invalid conversion"

/-- `vsnprintf` with a buffer that is large enough. -/
def vprintf (fmt : String) (args : List Arg) : Res Bytes :=
  render (tokens none (Decode.cstr fmt)) args

/-- What stands for one value among the arguments of a call, by its C type:
`text` a `Str` as `str_size(x), str_of(x)` (str.h), `string` a zero terminated
`char*`, then the integer types, `hex32` and `hex16` those that are to be
shown in base 16 (uuid.c:50), `real` a double, `pointer` an address, `sized` a
`size_t` and a pointer (s3_request.c:150-160), `full` an array without a zero byte
(digest_base64, s3_request.c:119: 28 digits in 28 bytes). -/
inductive Kind where
  | text | string | u64 | i64 | int | u8 | u32 | hex32 | hex16 | real | pointer | sized | full
  deriving DecidableEq

/-- A call: where it is, its format (with PRIu64 and PRIi64 as on 64 bit Linux), and
the values it gives. -/
structure Site where
  file : String
  line : Nat
  fmt : String
  kinds : List Kind
  deriving DecidableEq

/-- The calls in monotone/cloud/cloud/cloud_mgr.c, with the line of each. -/
def sites_cloud_cloud_cloud_mgr_c : List Site := [
  ⟨"cloud/cloud/cloud_mgr.c", 74, "cloud '%.*s': unknown cloud type", [.text]⟩,
  ⟨"cloud/cloud/cloud_mgr.c", 114, "cloud '%.*s': already exists", [.text]⟩,
  ⟨"cloud/cloud/cloud_mgr.c", 133, "cloud '%.*s': not exists", [.text]⟩,
  ⟨"cloud/cloud/cloud_mgr.c", 139, "cloud '%.*s': has dependencies", [.text]⟩,
  ⟨"cloud/cloud/cloud_mgr.c", 157, "cloud '%.*s': not exists", [.text]⟩,
  ⟨"cloud/cloud/cloud_mgr.c", 174, "cloud '%.*s': not exists", [.text]⟩,
  ⟨"cloud/cloud/cloud_mgr.c", 182, "cloud '%.*s': already exists", [.text]⟩,
  ⟨"cloud/cloud/cloud_mgr.c", 208, "cloud '%.*s': not exists", [.text]⟩]

/-- The calls in monotone/cloud/cloud/id.h, with the line of each. -/
def sites_cloud_cloud_id_h : List Site := [
  ⟨"cloud/cloud/id.h", 40, "%020lu", [.u64]⟩,
  ⟨"cloud/cloud/id.h", 44, "%020lu.incomplete", [.u64]⟩,
  ⟨"cloud/cloud/id.h", 49, "%020lu.complete", [.u64]⟩,
  ⟨"cloud/cloud/id.h", 54, "%020lu.cloud", [.u64]⟩,
  ⟨"cloud/cloud/id.h", 59, "%020lu.cloud.incomplete", [.u64]⟩]

/-- The calls in monotone/cloud/cloud/mock.c, with the line of each. -/
def sites_cloud_cloud_mock_c : List Site := [
  ⟨"cloud/cloud/mock.c", 24, "mock/%020lu", [.u64]⟩,
  ⟨"cloud/cloud/mock.c", 67, "mock", []⟩,
  ⟨"cloud/cloud/mock.c", 68, "%s", [.string]⟩,
  ⟨"cloud/cloud/mock.c", 70, "mock: new directory '%s'", [.string]⟩,
  ⟨"cloud/cloud/mock.c", 71, "%s", [.string]⟩,
  ⟨"cloud/cloud/mock.c", 93, "%s", [.string]⟩,
  ⟨"cloud/cloud/mock.c", 96, "%s", [.string]⟩,
  ⟨"cloud/cloud/mock.c", 97, "%s", [.string]⟩,
  ⟨"cloud/cloud/mock.c", 112, "%s", [.string]⟩,
  ⟨"cloud/cloud/mock.c", 133, "%s", [.string]⟩,
  ⟨"cloud/cloud/mock.c", 154, "%s", [.string]⟩,
  ⟨"cloud/cloud/mock.c", 155, "%s", [.string]⟩]

/-- The calls in monotone/cloud/cloud/source.h, with the line of each. -/
def sites_cloud_cloud_source_h : List Site := [
  ⟨"cloud/cloud/source.h", 348, "%s/%s/%s", [.string, .string, .string]⟩,
  ⟨"cloud/cloud/source.h", 354, "%.*s/%s/%s", [.text, .string, .string]⟩,
  ⟨"cloud/cloud/source.h", 359, "%s/%.*s/%s/%s", [.string, .text, .string, .string]⟩]

/-- The calls in monotone/cloud/s3/s3.c, with the line of each. -/
def sites_cloud_s3_s3_c : List Site := [
  ⟨"cloud/s3/s3.c", 41, "s3: access_key is not defined", []⟩,
  ⟨"cloud/s3/s3.c", 44, "s3: secret_key is not defined", []⟩,
  ⟨"cloud/s3/s3.c", 47, "s3: url is not defined", []⟩,
  ⟨"cloud/s3/s3.c", 125, "%s", [.string]⟩,
  ⟨"cloud/s3/s3.c", 126, "%s", [.string]⟩,
  ⟨"cloud/s3/s3.c", 146, "%s", [.string]⟩]

/-- The calls in monotone/cloud/s3/s3_op.c, with the line of each. -/
def sites_cloud_s3_s3_op_c : List Site := [
  ⟨"cloud/s3/s3_op.c", 148, "bytes=%lu-%lu", [.u64, .u64]⟩]

/-- The calls in monotone/cloud/s3/s3_request.c, with the line of each. -/
def sites_cloud_s3_s3_request_c : List Site := [
  ⟨"cloud/s3/s3_request.c", 74, "%s\n\n%s\n%s\n/%s/%020lu", [.string, .string, .string, .string, .u64]⟩,
  ⟨"cloud/s3/s3_request.c", 85, "%.*s/%s/%020lu", [.text, .string, .u64]⟩,
  ⟨"cloud/s3/s3_request.c", 93, "%s\n\n%s\n%s\n/%s", [.string, .string, .string, .string]⟩,
  ⟨"cloud/s3/s3_request.c", 103, "%.*s/%s", [.text, .string]⟩,
  ⟨"cloud/s3/s3_request.c", 124, "AWS %.*s:%s", [.text, .full]⟩,
  ⟨"cloud/s3/s3_request.c", 160, "s3 %.*s: %s%.*s", [.text, .string, .sized]⟩,
  ⟨"cloud/s3/s3_request.c", 181, "Date: %s", [.string]⟩,
  ⟨"cloud/s3/s3_request.c", 187, "Content-Type: %s", [.string]⟩,
  ⟨"cloud/s3/s3_request.c", 191, "Content-Length: %lu", [.u64]⟩,
  ⟨"cloud/s3/s3_request.c", 198, "Range: %s", [.string]⟩,
  ⟨"cloud/s3/s3_request.c", 203, "Authorization: %s", [.string]⟩,
  ⟨"cloud/s3/s3_request.c", 258, "s3: HTTP %d (%s)", [.text, .int, .string]⟩,
  ⟨"cloud/s3/s3_request.c", 265, "s3 %.*s: %s", [.text, .string]⟩]

/-- The calls in monotone/engine/engine/engine_recover.c, with the line of each. -/
def sites_engine_engine_engine_recover_c : List Site := [
  ⟨"engine/engine/engine_recover.c", 71, "", []⟩,
  ⟨"engine/engine/engine_recover.c", 75, "storage: directory '%s' open error", [.string]⟩,
  ⟨"engine/engine/engine_recover.c", 94, "storage: skipping unknown file: '%s%s'", [.string, .string]⟩,
  ⟨"engine/engine/engine_recover.c", 160, "partition '%lu' has unexpected state: %d", [.u64, .int]⟩,
  ⟨"engine/engine/engine_recover.c", 195, "partition '%lu' has unexpected state: %d", [.u64, .int]⟩]

/-- The calls in monotone/engine/engine/engine_show.c, with the line of each. -/
def sites_engine_engine_engine_show_c : List Site := [
  ⟨"engine/engine/engine_show.c", 42, "partition '%lu': not exists", [.u64]⟩,
  ⟨"engine/engine/engine_show.c", 97, "storage '%.*s': not exists", [.text]⟩]

/-- The calls in monotone/engine/engine/op.c, with the line of each. -/
def sites_engine_engine_op_c : List Site := [
  ⟨"engine/engine/op.c", 73, "fill: invalid partition interval", []⟩,
  ⟨"engine/engine/op.c", 174, "drop: partition '%lu' not found", [.u64]⟩,
  ⟨"engine/engine/op.c", 335, "download: partition '%lu' not found", [.u64]⟩,
  ⟨"engine/engine/op.c", 344, "download: partition '%lu' has no associated cloud", [.u64]⟩,
  ⟨"engine/engine/op.c", 404, "upload: partition '%lu' not found", [.u64]⟩,
  ⟨"engine/engine/op.c", 413, "upload: partition '%lu' storage has no associated cloud", [.u64]⟩,
  ⟨"engine/engine/op.c", 428, "upload: partition '%lu' file does not exist locally", [.u64]⟩]

/-- The calls in monotone/engine/engine/refresh.c, with the line of each. -/
def sites_engine_engine_refresh_c : List Site := [
  ⟨"engine/engine/refresh.c", 65, "refresh: partition '%lu' not found", [.u64]⟩,
  ⟨"engine/engine/refresh.c", 73, "refresh: partition '%lu' must be dropped from the cloud first", [.u64]⟩,
  ⟨"engine/engine/refresh.c", 83, "refresh: storage '%.*s' not found", [.text]⟩]

/-- The calls in monotone/engine/engine/write.c, with the line of each. -/
def sites_engine_engine_write_c : List Site := [
  ⟨"engine/engine/write.c", 89, "event key size limit is 255 bytes", []⟩]

/-- The calls in monotone/engine/io/index_op.c, with the line of each. -/
def sites_engine_io_index_op_c : List Site := [
  ⟨"engine/io/index_op.c", 37, "partition: file '%s' has incorrect size", [.string]⟩,
  ⟨"engine/io/index_op.c", 48, "partition: file '%s' is corrupted", [.string]⟩,
  ⟨"engine/io/index_op.c", 54, "partition: file index '%s' crc mismatch", [.string]⟩,
  ⟨"engine/io/index_op.c", 64, "partition: file '%s' size mismatch", [.string]⟩,
  ⟨"engine/io/index_op.c", 69, "partition: file '%s' index format is not compatible", [.string]⟩,
  ⟨"engine/io/index_op.c", 98, "partition: file '%s' unknown encryption: %d", [.string, .u8]⟩,
  ⟨"engine/io/index_op.c", 126, "partition: file '%s' unknown compression id: %d", [.string, .u8]⟩,
  ⟨"engine/io/index_op.c", 158, "partition: file index data '%s' crc mismatch", [.string]⟩]

/-- The calls in monotone/engine/io/part.c, with the line of each. -/
def sites_engine_io_part_c : List Site := [
  ⟨"engine/io/part.c", 148, "%s", [.string]⟩,
  ⟨"engine/io/part.c", 149, "%s", [.string]⟩,
  ⟨"engine/io/part.c", 160, "%s", [.string]⟩,
  ⟨"engine/io/part.c", 161, "%s", [.string]⟩]

/-- The calls in monotone/engine/io/reader.h, with the line of each. -/
def sites_engine_io_reader_h : List Site := [
  ⟨"engine/io/reader.h", 136, "read: region meta data mismatch", []⟩]

/-- The calls in monotone/engine/storage/pipeline.c, with the line of each. -/
def sites_engine_storage_pipeline_c : List Site := [
  ⟨"engine/storage/pipeline.c", 113, "pipeline: tier '%.*s' is duplicated", [.text]⟩,
  ⟨"engine/storage/pipeline.c", 118, "pipeline: tier '%.*s' is terminal and has no conditions", [.text]⟩]

/-- The calls in monotone/engine/storage/storage_mgr.c, with the line of each. -/
def sites_engine_storage_storage_mgr_c : List Site := [
  ⟨"engine/storage/storage_mgr.c", 125, "storage '%.*s': cloud '%.*s' not exists", [.text, .text]⟩,
  ⟨"engine/storage/storage_mgr.c", 164, "%.*s", [.text]⟩,
  ⟨"engine/storage/storage_mgr.c", 167, "%s/%.*s", [.string, .text]⟩,
  ⟨"engine/storage/storage_mgr.c", 170, "%s", [.string]⟩,
  ⟨"engine/storage/storage_mgr.c", 172, "storage: new directory '%s'", [.string]⟩,
  ⟨"engine/storage/storage_mgr.c", 173, "%s", [.string]⟩,
  ⟨"engine/storage/storage_mgr.c", 178, "", []⟩,
  ⟨"engine/storage/storage_mgr.c", 179, "%s", [.string]⟩,
  ⟨"engine/storage/storage_mgr.c", 181, "storage: new directory '%s'", [.string]⟩,
  ⟨"engine/storage/storage_mgr.c", 182, "%s", [.string]⟩,
  ⟨"engine/storage/storage_mgr.c", 193, "storage '%.*s': already exists", [.text]⟩,
  ⟨"engine/storage/storage_mgr.c", 215, "storage '%.*s': main storage cannot be dropped", [.text]⟩,
  ⟨"engine/storage/storage_mgr.c", 223, "storage '%.*s': not exists", [.text]⟩,
  ⟨"engine/storage/storage_mgr.c", 229, "storage '%.*s': has dependencies", [.text]⟩,
  ⟨"engine/storage/storage_mgr.c", 233, "storage '%.*s': has partitions", [.text]⟩,
  ⟨"engine/storage/storage_mgr.c", 254, "storage '%.*s': not exists", [.text]⟩,
  ⟨"engine/storage/storage_mgr.c", 263, "storage '%.*s': storage is not empty", [.text]⟩,
  ⟨"engine/storage/storage_mgr.c", 270, "storage '%.*s': storage is not empty", [.text]⟩,
  ⟨"engine/storage/storage_mgr.c", 281, "storage '%.*s': storage is not empty", [.text]⟩,
  ⟨"engine/storage/storage_mgr.c", 293, "storage '%.*s': some partitions are still remain on the cloud", [.text]⟩,
  ⟨"engine/storage/storage_mgr.c", 337, "storage '%.*s': main storage cannot be renamed", [.text]⟩,
  ⟨"engine/storage/storage_mgr.c", 345, "storage '%.*s': not exists", [.text]⟩,
  ⟨"engine/storage/storage_mgr.c", 351, "storage '%.*s': already exists", [.text]⟩]

/-- The calls in monotone/engine/storage/tier.h, with the line of each. -/
def sites_engine_storage_tier_h : List Site := [
  ⟨"engine/storage/tier.h", 53, "storage '%.*s': not exists", [.text]⟩]

/-- The calls in monotone/engine/wal/wal.c, with the line of each. -/
def sites_engine_wal_wal_c : List Site := [
  ⟨"engine/wal/wal.c", 119, "%s/wal/%020lu.wal", [.string, .u64]⟩,
  ⟨"engine/wal/wal.c", 122, "%s", [.string]⟩,
  ⟨"engine/wal/wal.c", 153, "wal: directory '%s' open error", [.string]⟩,
  ⟨"engine/wal/wal.c", 173, "%s/wal", [.string]⟩,
  ⟨"engine/wal/wal.c", 176, "%s", [.string]⟩,
  ⟨"engine/wal/wal.c", 178, "wal: new directory '%s'", [.string]⟩,
  ⟨"engine/wal/wal.c", 179, "%s", [.string]⟩]

/-- The calls in monotone/engine/wal/wal_file.h, with the line of each. -/
def sites_engine_wal_wal_file_h : List Site := [
  ⟨"engine/wal/wal_file.h", 43, "%s/wal/%020lu.wal", [.string, .u64]⟩,
  ⟨"engine/wal/wal_file.h", 53, "%s/wal/%020lu.wal", [.string, .u64]⟩,
  ⟨"engine/wal/wal_file.h", 119, "wal: file '%s' crc mismatch at offset %lu (lsn %lu)", [.string, .u64, .u64]⟩]

/-- The calls in monotone/main/api/monotone.c, with the line of each. -/
def sites_main_api_monotone_c : List Site := [
  ⟨"main/api/monotone.c", 98, "\n%s(%p): attempt to use freed object\n", [.string, .pointer]⟩,
  ⟨"main/api/monotone.c", 104, "\n%s(%p): unexpected object type\n", [.string, .pointer]⟩]

/-- The calls in monotone/main/command/lex.c, with the line of each. -/
def sites_main_command_lex_c : List Site := [
  ⟨"main/command/lex.c", 271, "bad float number", []⟩,
  ⟨"main/command/lex.c", 332, "unterminated string", []⟩,
  ⟨"main/command/lex.c", 342, "unterminated string", []⟩,
  ⟨"main/command/lex.c", 352, "bad token", []⟩]

/-- The calls in monotone/main/command/parse.c, with the line of each. -/
def sites_main_command_parse_c : List Site := [
  ⟨"main/command/parse.c", 81, "CREATE 'CLOUD|STORAGE|PARTITION' expected", []⟩,
  ⟨"main/command/parse.c", 99, "DROP 'STORAGE|PARTITION|PARTITIONS' expected", []⟩,
  ⟨"main/command/parse.c", 114, "ALTER 'STORAGE|PIPELINE' expected", []⟩,
  ⟨"main/command/parse.c", 127, "MOVE 'PARTITION|PARTITIONS' expected", []⟩,
  ⟨"main/command/parse.c", 139, "REFRESH 'PARTITION|PARTITIONS' expected", []⟩,
  ⟨"main/command/parse.c", 151, "DOWNLOAD 'PARTITION|PARTITIONS' expected", []⟩,
  ⟨"main/command/parse.c", 163, "UPLOAD 'PARTITION|PARTITIONS' expected", []⟩,
  ⟨"main/command/parse.c", 169, "unknown command", []⟩,
  ⟨"main/command/parse.c", 178, "unexpected clause at the end of command", []⟩]

/-- The calls in monotone/main/command/parse_cloud.c, with the line of each. -/
def sites_main_command_parse_cloud_c : List Site := [
  ⟨"main/command/parse_cloud.c", 50, "%s ('name' expected", [.string]⟩,
  ⟨"main/command/parse_cloud.c", 98, "%s: unknown option '%.*s'", [.string, .text]⟩,
  ⟨"main/command/parse_cloud.c", 108, "%s name (...')' expected", [.string]⟩,
  ⟨"main/command/parse_cloud.c", 129, "CREATE CLOUD 'name' expected", []⟩,
  ⟨"main/command/parse_cloud.c", 154, "DROP CLOUD 'name' expected", []⟩,
  ⟨"main/command/parse_cloud.c", 171, "ALTER CLOUD RENAME 'name' expected", []⟩,
  ⟨"main/command/parse_cloud.c", 190, "cloud type cannot be changed", []⟩,
  ⟨"main/command/parse_cloud.c", 206, "ALTER CLOUD 'name' expected", []⟩,
  ⟨"main/command/parse_cloud.c", 215, "ALTER CLOUD name 'RENAME or SET' expected", []⟩]

/-- The calls in monotone/main/command/parse_config.c, with the line of each. -/
def sites_main_command_parse_config_c : List Site := [
  ⟨"main/command/parse_config.c", 48, "SHOW CLOUD 'name' expected", []⟩,
  ⟨"main/command/parse_config.c", 57, "SHOW STORAGE 'name' expected", []⟩,
  ⟨"main/command/parse_config.c", 66, "SHOW PARTITION 'id' expected", []⟩,
  ⟨"main/command/parse_config.c", 91, "SHOW 'MEMORY | WAL | CLOUDS | STORAGES | PARTITION | PARTITIONS | PIPELINE | CONFIG | NAME'", []⟩,
  ⟨"main/command/parse_config.c", 121, "SET 'name' expected", []⟩,
  ⟨"main/command/parse_config.c", 125, "SET name 'TO' expected", []⟩]

/-- The calls in monotone/main/command/parse_debug.c, with the line of each. -/
def sites_main_command_parse_debug_c : List Site := [
  ⟨"main/command/parse_debug.c", 32, "DEBUG 'name' expected", []⟩,
  ⟨"main/command/parse_debug.c", 50, "DEBUG: unknown command", []⟩]

/-- The calls in monotone/main/command/parse_misc.h, with the line of each. -/
def sites_main_command_parse_misc_h : List Site := [
  ⟨"main/command/parse_misc.h", 22, "IF 'NOT' EXISTS expected", []⟩,
  ⟨"main/command/parse_misc.h", 24, "IF NOT 'EXISTS' expected", []⟩,
  ⟨"main/command/parse_misc.h", 34, "IF 'EXISTS' expected", []⟩,
  ⟨"main/command/parse_misc.h", 44, "IF 'CLOUD' expected", []⟩,
  ⟨"main/command/parse_misc.h", 54, "%.*s 'integer' expected", [.text]⟩,
  ⟨"main/command/parse_misc.h", 72, "%.*s 'true|false' expected", [.text]⟩,
  ⟨"main/command/parse_misc.h", 83, "%.*s 'string'expected", [.text]⟩,
  ⟨"main/command/parse_misc.h", 96, "%.*s 'string' expected", [.text]⟩]

/-- The calls in monotone/main/command/parse_partition.c, with the line of each. -/
def sites_main_command_parse_partition_c : List Site := [
  ⟨"main/command/parse_partition.c", 33, "CREATE PARTITION 'min' max", []⟩,
  ⟨"main/command/parse_partition.c", 57, "DROP PARTITION 'id'", []⟩,
  ⟨"main/command/parse_partition.c", 69, "DROP PARTITION id 'ON STORAGE | ON CLOUD' expected", []⟩,
  ⟨"main/command/parse_partition.c", 86, "DROP PARTITIONS 'BETWEEN' min AND max", []⟩,
  ⟨"main/command/parse_partition.c", 91, "DROP PARTITIONS BETWEEN 'min' AND max", []⟩,
  ⟨"main/command/parse_partition.c", 95, "DROP PARTITIONS BETWEEN min 'AND' max", []⟩,
  ⟨"main/command/parse_partition.c", 99, "DROP PARTITIONS BETWEEN min AND 'max'", []⟩,
  ⟨"main/command/parse_partition.c", 111, "DROP PARTITION BETWEEN min AND max 'ON STORAGE | ON CLOUD' expected", []⟩,
  ⟨"main/command/parse_partition.c", 132, "MOVE PARTITION 'id' INTO name", []⟩,
  ⟨"main/command/parse_partition.c", 136, "MOVE PARTITION id 'INTO' name", []⟩,
  ⟨"main/command/parse_partition.c", 141, "MOVE PARTITION id INTO 'name'", []⟩,
  ⟨"main/command/parse_partition.c", 157, "MOVE PARTITIONS 'BETWEEN' min AND max INTO name", []⟩,
  ⟨"main/command/parse_partition.c", 162, "MOVE PARTITIONS BETWEEN 'min' AND max INTO name", []⟩,
  ⟨"main/command/parse_partition.c", 166, "MOVE PARTITIONS BETWEEN min 'AND' max INTO name", []⟩,
  ⟨"main/command/parse_partition.c", 170, "MOVE PARTITIONS BETWEEN min AND 'max' INTO name", []⟩,
  ⟨"main/command/parse_partition.c", 174, "MOVE PARTITIONS BETWEEN min AND max 'INTO' name", []⟩,
  ⟨"main/command/parse_partition.c", 179, "MOVE PARTITIONS BETWEEN min AND max INTO 'name'", []⟩,
  ⟨"main/command/parse_partition.c", 199, "REFRESH PARTITION 'id'", []⟩,
  ⟨"main/command/parse_partition.c", 214, "REFRESH PARTITIONS 'BETWEEN' min AND max", []⟩,
  ⟨"main/command/parse_partition.c", 219, "REFRESH PARTITIONS BETWEEN 'min' AND max", []⟩,
  ⟨"main/command/parse_partition.c", 223, "REFRESH PARTITIONS BETWEEN min 'AND' max", []⟩,
  ⟨"main/command/parse_partition.c", 227, "REFRESH PARTITIONS BETWEEN min AND 'max'", []⟩,
  ⟨"main/command/parse_partition.c", 246, "DOWNLOAD PARTITION 'id'", []⟩,
  ⟨"main/command/parse_partition.c", 265, "DOWNLOAD PARTITIONS 'BETWEEN' min AND max", []⟩,
  ⟨"main/command/parse_partition.c", 270, "DOWNLOAD PARTITIONS BETWEEN 'min' AND max", []⟩,
  ⟨"main/command/parse_partition.c", 274, "DOWNLOAD PARTITIONS BETWEEN min 'AND' max", []⟩,
  ⟨"main/command/parse_partition.c", 278, "DOWNLOAD PARTITIONS BETWEEN min AND 'max'", []⟩,
  ⟨"main/command/parse_partition.c", 301, "UPLOAD PARTITION 'id'", []⟩,
  ⟨"main/command/parse_partition.c", 320, "UPLOAD PARTITIONS 'BETWEEN' min AND max", []⟩,
  ⟨"main/command/parse_partition.c", 325, "UPLOAD PARTITIONS BETWEEN 'min' AND max", []⟩,
  ⟨"main/command/parse_partition.c", 329, "UPLOAD PARTITIONS BETWEEN min 'AND' max", []⟩,
  ⟨"main/command/parse_partition.c", 333, "UPLOAD PARTITIONS BETWEEN min AND 'max'", []⟩]

/-- The calls in monotone/main/command/parse_pipeline.c, with the line of each. -/
def sites_main_command_parse_pipeline_c : List Site := [
  ⟨"main/command/parse_pipeline.c", 36, "ALTER PIPELINE SET 'storage name' expected", []⟩,
  ⟨"main/command/parse_pipeline.c", 61, "ALTER PIPELINE SET name '(' expected", []⟩,
  ⟨"main/command/parse_pipeline.c", 83, "ALTER PIPELINE SET name ('name' value) expected", []⟩,
  ⟨"main/command/parse_pipeline.c", 109, "ALTER PIPELINE: unknown option '%.*s'", [.text]⟩,
  ⟨"main/command/parse_pipeline.c", 119, "ALTER PIPELINE SET name (...')' expected", []⟩,
  ⟨"main/command/parse_pipeline.c", 134, "ALTER PIPELINE SET name() ',' expected", []⟩,
  ⟨"main/command/parse_pipeline.c", 152, "ALTER PIPELINE 'SET | RESET' expected", []⟩]

/-- The calls in monotone/main/command/parse_storage.c, with the line of each. -/
def sites_main_command_parse_storage_c : List Site := [
  ⟨"main/command/parse_storage.c", 49, "%s ('name' expected", [.string]⟩,
  ⟨"main/command/parse_storage.c", 102, "invalid region_size value", []⟩,
  ⟨"main/command/parse_storage.c", 113, "unknown compression: '%.*s'", [.text]⟩,
  ⟨"main/command/parse_storage.c", 132, "unknown encryption: '%.*s'", [.text]⟩,
  ⟨"main/command/parse_storage.c", 144, "encryption key must be 256bit", []⟩,
  ⟨"main/command/parse_storage.c", 148, "%s: unknown option: '%.*s'", [.string, .text]⟩,
  ⟨"main/command/parse_storage.c", 158, "%s name (...')' expected", [.string]⟩,
  ⟨"main/command/parse_storage.c", 179, "CREATE STORAGE 'name' expected", []⟩,
  ⟨"main/command/parse_storage.c", 232, "DROP STORAGE 'name' expected", []⟩,
  ⟨"main/command/parse_storage.c", 249, "ALTER STORAGE RENAME 'name' expected", []⟩,
  ⟨"main/command/parse_storage.c", 267, "storage uuid cannot be changed this way", []⟩,
  ⟨"main/command/parse_storage.c", 283, "ALTER STORAGE 'name' expected", []⟩,
  ⟨"main/command/parse_storage.c", 292, "ALTER STORAGE name 'RENAME or SET' expected", []⟩]

/-- The calls in monotone/main/main/execute.c, with the line of each. -/
def sites_main_main_execute_c : List Site := [
  ⟨"main/main/execute.c", 81, "SHOW name: '%.*s' not found", [.text]⟩,
  ⟨"main/main/execute.c", 122, "SET '%.*s': variable not found", [.text]⟩,
  ⟨"main/main/execute.c", 128, "SET '%.*s': variable cannot be changed online", [.text]⟩,
  ⟨"main/main/execute.c", 133, "SET '%.*s': variable cannot be changed", [.text]⟩,
  ⟨"main/main/execute.c", 143, "SET '%.*s': bool value expected", [.text]⟩,
  ⟨"main/main/execute.c", 152, "SET '%.*s': integer value expected", [.text]⟩,
  ⟨"main/main/execute.c", 155, "SET '%.*s': variable cannot be set to zero", [.text]⟩,
  ⟨"main/main/execute.c", 163, "SET '%.*s': string value expected", [.text]⟩,
  ⟨"main/main/execute.c", 170, "SET '%.*s': variable cannot be changed", [.text]⟩,
  ⟨"main/main/execute.c", 203, "[%lu, %d, %d, %d]\n", [.u64, .u8, .u32, .u32]⟩]

/-- The calls in monotone/main/main/main.c, with the line of each. -/
def sites_main_main_main_c : List Site := [
  ⟨"main/main/main.c", 31, "%s/config.json", [.string]⟩,
  ⟨"main/main/main.c", 121, "environment is already open", []⟩,
  ⟨"main/main/main.c", 140, "%s", [.string]⟩,
  ⟨"main/main/main.c", 142, "%s", [.string]⟩,
  ⟨"main/main/main.c", 147, "in use by another process", []⟩,
  ⟨"main/main/main.c", 151, "%s/config.json", [.string]⟩,
  ⟨"main/main/main.c", 160, "%s/log", [.string]⟩,
  ⟨"main/main/main.c", 200, "wal: unrecognized operation: %d (lsn: %lu)", [.u8, .u64]⟩,
  ⟨"main/main/main.c", 207, "wal: %.1f million records processed", [.real]⟩,
  ⟨"main/main/main.c", 221, "", []⟩,
  ⟨"main/main/main.c", 222, "monotone.", []⟩,
  ⟨"main/main/main.c", 223, "", []⟩,
  ⟨"main/main/main.c", 225, "", []⟩]

/-- The calls in monotone/runtime/config/config.c, with the line of each. -/
def sites_runtime_config_config_c : List Site := [
  ⟨"runtime/config/config.c", 149, "config: unknown option '%.*s'", [.text]⟩,
  ⟨"runtime/config/config.c", 153, "config: option '%.*s' cannot be changed", [.text]⟩,
  ⟨"runtime/config/config.c", 160, "config: bool expected for option '%.*s'", [.text]⟩,
  ⟨"runtime/config/config.c", 170, "config: integer expected for option '%.*s'", [.text]⟩,
  ⟨"runtime/config/config.c", 180, "config: string expected for option '%.*s'", [.text]⟩,
  ⟨"runtime/config/config.c", 195, "config: bad option '%.*s' value", [.text]⟩,
  ⟨"runtime/config/config.c", 261, "%s.old", [.string]⟩,
  ⟨"runtime/config/config.c", 262, "%s.old", [.string]⟩,
  ⟨"runtime/config/config.c", 265, "%s.old", [.string]⟩,
  ⟨"runtime/config/config.c", 271, "%s.old", [.string]⟩,
  ⟨"runtime/config/config.c", 277, "%s", [.string]⟩,
  ⟨"runtime/config/config.c", 282, "%s", [.string]⟩]

/-- The calls in monotone/runtime/config/error_injection.h, with the line of each. -/
def sites_runtime_config_error_injection_h : List Site := [
  ⟨"runtime/config/error_injection.h", 18, "error injection: %s", [.string]⟩]

/-- The calls in monotone/runtime/config/var.h, with the line of each. -/
def sites_runtime_config_var_h : List Site := [
  ⟨"runtime/config/var.h", 198, "%-32s%s", [.string, .string]⟩,
  ⟨"runtime/config/var.h", 202, "%-32s%lu", [.string, .u64]⟩,
  ⟨"runtime/config/var.h", 206, "%-32s%.*s", [.string, .text]⟩]

/-- The calls in monotone/runtime/lib/compression_lz4.c, with the line of each. -/
def sites_runtime_lib_compression_lz4_c : List Site := [
  ⟨"runtime/lib/compression_lz4.c", 32, "lz4: operation failed: %s", [.string]⟩,
  ⟨"runtime/lib/compression_lz4.c", 47, "lz4: failed to create compression context", []⟩,
  ⟨"runtime/lib/compression_lz4.c", 54, "lz4: failed to create decompression context", []⟩]

/-- The calls in monotone/runtime/lib/compression_zstd.c, with the line of each. -/
def sites_runtime_lib_compression_zstd_c : List Site := [
  ⟨"runtime/lib/compression_zstd.c", 36, "zstd: failed to create compression context", []⟩,
  ⟨"runtime/lib/compression_zstd.c", 108, "zstd: decompression failed", []⟩]

/-- The calls in monotone/runtime/lib/data.h, with the line of each. -/
def sites_runtime_lib_data_h : List Site := [
  ⟨"runtime/lib/data.h", 77, "expected data type '%s', but got '%s'", [.string, .string]⟩]

/-- The calls in monotone/runtime/lib/decode.h, with the line of each. -/
def sites_runtime_lib_decode_h : List Site := [
  ⟨"runtime/lib/decode.h", 57, "config: string expected for '%s'", [.string]⟩,
  ⟨"runtime/lib/decode.h", 67, "config: string expected for '%s'", [.string]⟩,
  ⟨"runtime/lib/decode.h", 76, "config: integer expected for '%s'", [.string]⟩,
  ⟨"runtime/lib/decode.h", 84, "config: bool expected for '%s'", [.string]⟩,
  ⟨"runtime/lib/decode.h", 92, "config: real expected for '%s'", [.string]⟩,
  ⟨"runtime/lib/decode.h", 100, "config: null expected for '%s'", [.string]⟩,
  ⟨"runtime/lib/decode.h", 117, "config: unknown key '%.*s'", [.text]⟩,
  ⟨"runtime/lib/decode.h", 126, "config: key '%s' is not found", [.string]⟩]

/-- The calls in monotone/runtime/lib/encryption_aes.c, with the line of each. -/
def sites_runtime_lib_encryption_aes_c : List Site := [
  ⟨"runtime/lib/encryption_aes.c", 37, "aes: EVP_CIPHER_CTX_new() failed", []⟩,
  ⟨"runtime/lib/encryption_aes.c", 43, "aes: EVP_CipherInit_ex2() failed", []⟩,
  ⟨"runtime/lib/encryption_aes.c", 69, "aes: encryption key must be 256bit", []⟩,
  ⟨"runtime/lib/encryption_aes.c", 87, "aes: EVP_CipherInit_ex2() failed", []⟩,
  ⟨"runtime/lib/encryption_aes.c", 95, "aes: EVP_CipherUpdate() failed", []⟩,
  ⟨"runtime/lib/encryption_aes.c", 102, "aes: EVP_CipherFinal_ex() failed", []⟩,
  ⟨"runtime/lib/encryption_aes.c", 119, "aes: encryption key must be 256bit", []⟩,
  ⟨"runtime/lib/encryption_aes.c", 131, "aes: EVP_CipherInit_ex2() failed", []⟩,
  ⟨"runtime/lib/encryption_aes.c", 139, "aes: EVP_CipherUpdate() failed", []⟩,
  ⟨"runtime/lib/encryption_aes.c", 144, "aes: decryption failed", []⟩]

/-- The calls in monotone/runtime/lib/json.c, with the line of each. -/
def sites_runtime_lib_json_c : List Site := [
  ⟨"runtime/lib/json.c", 270, "%s", [.string]⟩,
  ⟨"runtime/lib/json.c", 300, "%f", [.real]⟩,
  ⟨"runtime/lib/json.c", 308, "%li", [.i64]⟩]

/-- The calls in monotone/runtime/lib/memory_mgr.h, with the line of each. -/
def sites_runtime_lib_memory_mgr_h : List Site := [
  ⟨"runtime/lib/memory_mgr.h", 74, "mm: unrecognized memory limit behaviour", []⟩,
  ⟨"runtime/lib/memory_mgr.h", 145, "mm: memory limit reached", []⟩]

/-- The calls in monotone/runtime/lib/uuid.c, with the line of each. -/
def sites_runtime_lib_uuid_c : List Site := [
  ⟨"runtime/lib/uuid.c", 50, "%08x-%04x-%04x-%04x-%04x%08x", [.hex32, .hex16, .hex16, .hex16, .hex16, .hex32]⟩,
  ⟨"runtime/lib/uuid.c", 125, "%s", [.string]⟩]

/-- The calls in monotone/runtime/runtime/file.h, with the line of each. -/
def sites_runtime_runtime_file_h : List Site := [
  ⟨"runtime/runtime/file.h", 37, "file: '%s' %s error: %s", [.string, .string, .string]⟩]

/-- The calls in monotone/runtime/runtime/logger.c, with the line of each. -/
def sites_runtime_runtime_logger_c : List Site := [
  ⟨"runtime/runtime/logger.c", 80, "%03d ", [.int]⟩,
  ⟨"runtime/runtime/logger.c", 85, "%s", [.string]⟩,
  ⟨"runtime/runtime/logger.c", 89, "\n", []⟩]

/-- The calls in monotone/runtime/runtime/throw.h, with the line of each. -/
def sites_runtime_runtime_throw_h : List Site := [
  ⟨"runtime/runtime/throw.h", 40, "%s(): %s (errno: %d)", [.string, .string, .int]⟩,
  ⟨"runtime/runtime/throw.h", 44, "data read error", []⟩]

/-- All of them. -/
def sites : List Site :=
  sites_cloud_cloud_cloud_mgr_c ++
  sites_cloud_cloud_id_h ++
  sites_cloud_cloud_mock_c ++
  sites_cloud_cloud_source_h ++
  sites_cloud_s3_s3_c ++
  sites_cloud_s3_s3_op_c ++
  sites_cloud_s3_s3_request_c ++
  sites_engine_engine_engine_recover_c ++
  sites_engine_engine_engine_show_c ++
  sites_engine_engine_op_c ++
  sites_engine_engine_refresh_c ++
  sites_engine_engine_write_c ++
  sites_engine_io_index_op_c ++
  sites_engine_io_part_c ++
  sites_engine_io_reader_h ++
  sites_engine_storage_pipeline_c ++
  sites_engine_storage_storage_mgr_c ++
  sites_engine_storage_tier_h ++
  sites_engine_wal_wal_c ++
  sites_engine_wal_wal_file_h ++
  sites_main_api_monotone_c ++
  sites_main_command_lex_c ++
  sites_main_command_parse_c ++
  sites_main_command_parse_cloud_c ++
  sites_main_command_parse_config_c ++
  sites_main_command_parse_debug_c ++
  sites_main_command_parse_misc_h ++
  sites_main_command_parse_partition_c ++
  sites_main_command_parse_pipeline_c ++
  sites_main_command_parse_storage_c ++
  sites_main_main_execute_c ++
  sites_main_main_main_c ++
  sites_runtime_config_config_c ++
  sites_runtime_config_error_injection_h ++
  sites_runtime_config_var_h ++
  sites_runtime_lib_compression_lz4_c ++
  sites_runtime_lib_compression_zstd_c ++
  sites_runtime_lib_data_h ++
  sites_runtime_lib_decode_h ++
  sites_runtime_lib_encryption_aes_c ++
  sites_runtime_lib_json_c ++
  sites_runtime_lib_memory_mgr_h ++
  sites_runtime_lib_uuid_c ++
  sites_runtime_runtime_file_h ++
  sites_runtime_runtime_logger_c ++
  sites_runtime_runtime_throw_h

end Verif.Messages
