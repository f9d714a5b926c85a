import Verif.Model.Data

/-! Model of runtime/lib/json.c: reading JSON text into the typed binary encoding
and writing it back as text.

`self->json + self->pos` is the list of the remaining characters.  The C code
recurses for nested values; the `Nat` that counts down is the depth of the C
stack that is left, and using it up is undefined.  Text sizes and counts are
assumed to stay below 2^31 (`int`). -/
namespace Verif
namespace Json
open Data

/-- `isspace` in the "C" locale: tab, newline, vertical tab, form feed, carriage
return and space.  A negative `char` is formally undefined here; the C library
answers no. -/
def isspace (b : UInt8) : Bool := b = 32 || (9 ≤ b && b ≤ 13)

/-- A `char` (signed on x86-64) converted to `int`. -/
def chr (b : UInt8) : Int := signed 1 b.toNat

/-- `isdigit`. -/
def isdigit (b : UInt8) : Bool := 48 ≤ b && b ≤ 57

/-- json_next, json.c:42-54: the token (0 at the end, -1 on error) and the text
at the new position. -/
def next (n : Nat) (s : Bytes) : Int × Bytes :=
  if s.length < n then (-1, s)
  else
    match (s.drop n).dropWhile isspace with
    | [] => (0, [])
    | b :: r => (chr b, b :: r)

/-- The loop of a quoted string, json.c:163-175, from the character after the
quote; `none` when no closing quote is found (176-178). -/
def scan : Bool → Bytes → Option (Bytes × Bytes)
  | _, [] => none
  | slash, b :: r =>
    if slash then (scan false r).map fun (t, r) => (b :: t, r)
    else if b = 92 then (scan true r).map fun (t, r) => (b :: t, r)
    else if b = 34 then some ([], r)
    else (scan false r).map fun (t, r) => (b :: t, r)

/-- The digit loop, json.c:223-238: the value and the text after it, or `none`
when the number turns out to be a real (`goto fp`).  `(value * 10) + symbol`
is computed in `int64_t` before '0' is subtracted. -/
def digits : Int → Bytes → Res (Option (Int × Bytes))
  | value, [] => .ok (some (value, []))
  | value, b :: r =>
    if b = 46 || b = 101 || b = 69 then .ok none
    else if ! isdigit b then .ok (some (value, b :: r))
    else if value * 10 + b.toNat > 9223372036854775807 then .ub "signed integer overflow"
    else digits (value * 10 + b.toNat - 48) r

/-- A number, json.c:204-255, `none` for `return -1`: the rest of the text and
the encoded value.  `fp` stands for strtod (bit pattern of the double and the
number of characters used, `none` if errno is ERANGE afterwards); that strtod
looks for the end of the number beyond the text is not modelled. -/
def number (fp : Bytes → Option (Nat × Nat)) (s : Bytes) : Res (Option (Bytes × Bytes)) :=
  let negative := s.head? = some 45
  let s := if negative then s.drop 1 else s
  let real : Option (Bytes × Bytes) :=
    match fp s with
    | none => none
    | some (d, used) =>
      if s.length < used then none
      else some (s.drop used,
        data_write_real (if negative then (d + 9223372036854775808) % 18446744073709551616 else d))
  if s.isEmpty then .ok none
  else if s.head? = some 46 then .ok real
  else (digits 0 s).bind fun
    | none => .ok real
    | some (value, s) =>
      .ok (some (s, data_write_integer (wrapU64 (if negative then -value else value))))

/-- The loop over the elements of an array, json.c:82-101: number of elements,
the text after the bracket, the encoded elements; `none` for `return -1`.  Every
turn uses up at least one character, so the bound (the length of the text) is
never reached. -/
def elements (value : Bytes → Res (Int × Bytes × Bytes)) : Nat → Bytes → Res (Option (Nat × Bytes × Bytes))
  | 0, _ => .ub "loop bound"
  | n + 1, s =>
    (value s).bind fun (rc, s, out) =>
    if rc ≤ 0 then .ok none
    else
      let (rc, s) := next 0 s
      if rc = 93 then .ok (some (1, s.drop 1, out))
      else if rc ≠ 44 then .ok none
      else
        let (rc, s) := next 1 s
        if rc ≤ 0 then .ok none
        else (elements value n s).bind fun
          | none => .ok none
          | some (c, s, o) => .ok (some (c + 1, s, out ++ o))

/-- The loop over the entries of a map, json.c:124-151; `value skip s` is
json_read. -/
def entries (value : Nat → Bytes → Res (Int × Bytes × Bytes)) : Nat → Bytes → Res (Option (Nat × Bytes × Bytes))
  | 0, _ => .ub "loop bound"
  | n + 1, s =>
    (value 0 s).bind fun (rc, s, key) =>
    if rc ≠ 34 then .ok none
    else
      let (rc, s) := next 0 s
      if rc ≠ 58 then .ok none
      else (value 1 s).bind fun (rc, s, out) =>
        if rc = -1 then .ok none
        else
          let (rc, s) := next 0 s
          if rc = 125 then .ok (some (1, s.drop 1, key ++ out))
          else if rc ≠ 44 then .ok none
          else
            let (rc, s) := next 1 s
            if rc ≤ 0 then .ok none
            else (entries value n s).bind fun
              | none => .ok none
              | some (c, s, o) => .ok (some (c + 1, s, key ++ out ++ o))

/-- `memcmp(self->json + self->pos, word, n)` with the check that the word fits,
json.c:184-202. -/
def word (w s : Bytes) : Option Bytes := if w.isPrefixOf s then some (s.drop w.length) else none

/-- A result of json_read: the token returned, the text left, the bytes appended
to `self->buf`.  The header of an array or map is written with count 0 first and
overwritten at the end (json.c:70-71, 103-106). -/
def ret (token : Int) : Option (Bytes × Bytes) → Int × Bytes × Bytes
  | none => (-1, [], [])
  | some (s, out) => (token, s, out)

/-- json_read, json.c:56-259. -/
def read (fp : Bytes → Option (Nat × Nat)) : Nat → Nat → Bytes → Res (Int × Bytes × Bytes)
  | 0, _, _ => .ub "stack overflow"
  | d + 1, skip, s =>
    let (token, s) := next skip s
    if token ≤ 0 then .ok (token, s, [])
    else if token = 91 then
      let (rc, s) := next 1 s
      if rc ≤ 0 then .ok (ret token none)
      else if rc = 93 then .ok (ret token (some (s.drop 1, data_write_array32 0)))
      else (elements (read fp d 0) s.length s).bind fun
        | none => .ok (ret token none)
        | some (c, s, out) => .ok (ret token (some (s, data_write_array32 c ++ out)))
    else if token = 123 then
      let (rc, s) := next 1 s
      if rc ≤ 0 then .ok (ret token none)
      else if rc = 125 then .ok (ret token (some (s.drop 1, data_write_map32 0)))
      else (entries (read fp d) s.length s).bind fun
        | none => .ok (ret token none)
        | some (c, s, out) => .ok (ret token (some (s, data_write_map32 c ++ out)))
    else if token = 34 then
      .ok (ret token ((scan false (s.drop 1)).map fun (t, r) => (r, data_write_raw t)))
    else if token = 110 then
      .ok (ret token ((word [110, 117, 108, 108] s).map fun r => (r, data_write_null)))
    else if token = 116 then
      .ok (ret token ((word [116, 114, 117, 101] s).map fun r => (r, data_write_bool true)))
    else if token = 102 then
      .ok (ret token ((word [102, 97, 108, 115, 101] s).map fun r => (r, data_write_bool false)))
    else if token = 46 ∨ token = 45 ∨ (48 ≤ token ∧ token ≤ 57) then
      (number fp s).bind fun r => .ok (ret token r)
    else .ok (ret token none)

/-- json_parse, json.c:261-272: the contents of `self->buf`.  Only -1 is an
error: an empty text and text that starts with a byte of 128..254 are accepted
and leave the buffer empty; text after the value is not looked at. -/
def parse (fp : Bytes → Option (Nat × Nat)) (depth : Nat) (s : Bytes) : Res Bytes :=
  (read fp depth 0 s).bind fun (rc, _, out) =>
    if rc = -1 then .err "json parse error" else .ok out

/-- The digits of a decimal number of at most `w` digits. -/
def decDigits : Nat → Nat → Bytes
  | 0, _ => []
  | w + 1, n => (if n < 10 then [] else decDigits w (n / 10)) ++ [UInt8.ofNat (48 + n % 10)]

/-- `snprintf` with `"%" PRIi64`. -/
def decimal (i : Int) : Bytes :=
  if i < 0 then 45 :: decDigits 20 i.natAbs else decDigits 20 i.natAbs

/-- `snprintf(buf, sizeof(buf), "%f", value)` and `buf_write(data, buf, buf_len)`,
json.c:300-302: `text` is the complete text; `buf` has 32 bytes, but buf_len is
the length of the complete text. -/
def realText (text : Bytes) : Res Bytes :=
  if text.length ≤ 31 then .ok text
  else if text.length = 32 then .ok (text.take 31 ++ [0])
  else .ub "read past the end of buf"

/-- The loop over an array, json.c:329-334 (`", "` between elements). -/
def exportAll (value : Bytes → Res (Bytes × Bytes)) : Nat → Bytes → Res (Bytes × Bytes)
  | 0, bs => .ok ([], bs)
  | n + 1, bs =>
    (value bs).bind fun (t, bs) =>
    (exportAll value n bs).bind fun (u, bs) =>
    .ok (t ++ (if n > 0 then [44, 32] else []) ++ u, bs)

/-- `for (i = 0; i < deep; i++) buf_write(data, "  ", 2)`, json.c:348-349, 361-362. -/
def indent (deep : Nat) : Bytes := List.replicate (2 * deep) 32

/-- The loop over a map, json.c:346-360 (pretty) and 367-377. -/
def exportEntries (value : Bytes → Res (Bytes × Bytes)) (pretty : Bool) (deep : Nat) : Nat → Bytes → Res (Bytes × Bytes)
  | 0, bs => .ok ([], bs)
  | n + 1, bs =>
    (value bs).bind fun (k, bs) =>
    (value bs).bind fun (v, bs) =>
    (exportEntries value pretty deep n bs).bind fun (u, bs) =>
    .ok ((if pretty then indent (deep + 1) else []) ++ k ++ [58, 32] ++ v ++
      (if pretty then (if n > 0 then [44, 10] else [10]) else (if n > 0 then [44, 32] else [])) ++ u, bs)

/-- json_export_as, json.c:274-385: the text written and the data after the
value.  `fmt` gives the text of a double printed with "%f". -/
def exportAs (fmt : Nat → Bytes) (pretty : Bool) : Nat → Nat → Bytes → Res (Bytes × Bytes)
  | 0, _, _ => .ub "stack overflow"
  | _ + 1, _, [] => .ub "read past the end of the buffer"
  | d + 1, deep, t :: rest =>
    if t.toNat = MN_NULL then (data_read_null (t :: rest)).bind fun r => .ok ([110, 117, 108, 108], r)
    else if data_is_bool t.toNat then (data_read_bool (t :: rest)).bind fun (b, r) =>
      .ok (if b then [116, 114, 117, 101] else [102, 97, 108, 115, 101], r)
    else if data_is_real t.toNat then (data_read_real (t :: rest)).bind fun (x, r) =>
      (realText (fmt x)).bind fun text => .ok (text, r)
    else if data_is_integer t.toNat then (data_read_integer (t :: rest)).bind fun (i, r) => .ok (decimal i, r)
    else if data_is_string t.toNat then (data_read_raw (t :: rest)).bind fun (s, r) =>
      .ok ([34] ++ s ++ [34], r)
    else if data_is_array t.toNat then (data_read_array (t :: rest)).bind fun (n, r) =>
      (exportAll (exportAs fmt pretty d deep) n.toNat r).bind fun (u, r) => .ok ([91] ++ u ++ [93], r)
    else if data_is_map t.toNat then (data_read_map (t :: rest)).bind fun (n, r) =>
      (exportEntries (exportAs fmt pretty d (deep + 1)) pretty deep n.toNat r).bind fun (u, r) =>
      .ok ((if pretty then [123, 10] else [123]) ++ u ++ (if pretty then indent deep else []) ++ [125], r)
    else .err "unexpected data type"

/-- json_export_pretty, json.c:393-397. -/
def export_pretty (fmt : Nat → Bytes) (depth : Nat) (bs : Bytes) : Res Bytes :=
  (exportAs fmt true depth 0 bs).bind fun (t, _) => .ok t

/-- json_export, json.c:387-391. -/
def export_ (fmt : Nat → Bytes) (depth : Nat) (bs : Bytes) : Res Bytes :=
  (exportAs fmt false depth 0 bs).bind fun (t, _) => .ok t

end Json
end Verif
