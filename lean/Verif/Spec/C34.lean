import Verif.Model.Data

/-! C34: typed binary values round trip.

A value is a tree.  `enc` makes the encode_* calls (runtime/lib/encode.h) for it
in order, `reserved` adds up the room these calls reserve (`data_size_*`), and
`Reads` says that the data_read_* calls for the tree, in order, return its
contents.  Map keys are strings, as everywhere in /repo. -/
namespace Verif.C34
open Data

mutual
/-- A value; `real` carries the 64-bit pattern of a double. -/
inductive Val where
  | null
  | bool (b : Bool)
  | int (i : Int)
  | real (d : Nat)
  | str (s : Bytes)
  | arr (l : Vals)
  | map (l : Maps)

inductive Vals where
  | nil
  | cons (v : Val) (l : Vals)

inductive Maps where
  | nil
  | cons (k : Bytes) (v : Val) (l : Maps)
end

def Vals.len : Vals → Nat
  | .nil => 0
  | .cons _ l => l.len + 1

def Maps.len : Maps → Nat
  | .nil => 0
  | .cons _ _ l => l.len + 1

mutual
/-- encode_null, encode_bool, encode_integer, encode_real, encode_string,
encode_array, encode_map: runtime/lib/encode.h:17-105. -/
def enc : Val → Bytes
  | .null => data_write_null
  | .bool b => data_write_bool b
  | .int i => data_write_integer (wrapU64 i)
  | .real d => data_write_real d
  | .str s => data_write_raw s
  | .arr l => data_write_array l.len ++ encAll l
  | .map l => data_write_map l.len ++ encMap l

def encAll : Vals → Bytes
  | .nil => []
  | .cons v l => enc v ++ encAll l

def encMap : Maps → Bytes
  | .nil => []
  | .cons k v l => data_write_raw k ++ (enc v ++ encMap l)
end

mutual
/-- The byte strings that stand for a value: a count may also be written with
the 32-bit header of encode_array32 and encode_map32 (encode.h:24-41), as the
JSON reader does (runtime/lib/json.c:70-71, 103-105, 111-112, 153-155). -/
def Encodes : Val → Bytes → Prop
  | .null, bs => bs = data_write_null
  | .bool b, bs => bs = data_write_bool b
  | .int i, bs => bs = data_write_integer (wrapU64 i)
  | .real d, bs => bs = data_write_real d
  | .str s, bs => bs = data_write_raw s
  | .arr l, bs => ∃ h b, (h = data_write_array l.len ∨ h = data_write_array32 l.len) ∧
      EncodesAll l b ∧ bs = h ++ b
  | .map l, bs => ∃ h b, (h = data_write_map l.len ∨ h = data_write_map32 l.len) ∧
      EncodesMap l b ∧ bs = h ++ b

def EncodesAll : Vals → Bytes → Prop
  | .nil, bs => bs = []
  | .cons v l, bs => ∃ b1 b2, Encodes v b1 ∧ EncodesAll l b2 ∧ bs = b1 ++ b2

def EncodesMap : Maps → Bytes → Prop
  | .nil, bs => bs = []
  | .cons k v l, bs => ∃ b1 b2, Encodes v b1 ∧ EncodesMap l b2 ∧ bs = data_write_raw k ++ (b1 ++ b2)
end

mutual
/-- The sum of the sizes passed to buf_reserve by these calls. -/
def reserved : Val → Nat
  | .null => data_size_null
  | .bool _ => data_size_bool
  | .int i => data_size_integer (wrapU64 i)
  | .real d => data_size_real d
  | .str s => data_size_string s.length
  | .arr l => data_size_array l.len + reservedAll l
  | .map l => data_size_map l.len + reservedMap l

def reservedAll : Vals → Nat
  | .nil => 0
  | .cons v l => reserved v + reservedAll l

def reservedMap : Maps → Nat
  | .nil => 0
  | .cons k v l => data_size_string k.length + (reserved v + reservedMap l)
end

mutual
/-- Reading a value at `bs` gives `v` and leaves the cursor at `rest`. -/
def Reads : Val → Bytes → Bytes → Prop
  | .null, bs, rest => data_read_null bs = .ok rest
  | .bool b, bs, rest => data_read_bool bs = .ok (b, rest)
  | .int i, bs, rest => data_read_integer bs = .ok (i, rest)
  | .real d, bs, rest => data_read_real bs = .ok (d, rest)
  | .str s, bs, rest => data_read_raw bs = .ok (s, rest)
  | .arr l, bs, rest => ∃ r, data_read_array bs = .ok ((l.len : Int), r) ∧ ReadsAll l r rest
  | .map l, bs, rest => ∃ r, data_read_map bs = .ok ((l.len : Int), r) ∧ ReadsMap l r rest

def ReadsAll : Vals → Bytes → Bytes → Prop
  | .nil, bs, rest => bs = rest
  | .cons v l, bs, rest => ∃ r, Reads v bs r ∧ ReadsAll l r rest

def ReadsMap : Maps → Bytes → Bytes → Prop
  | .nil, bs, rest => bs = rest
  | .cons k v l, bs, rest =>
    ∃ r1 r2, data_read_raw bs = .ok (k, r1) ∧ Reads v r1 r2 ∧ ReadsMap l r2 rest
end

mutual
/-- The value fits the C types: 64-bit integers and doubles, string sizes and
element counts are `int`, and `data_size_string` (header and contents) is an
`int` too.  `R` restricts the reals. -/
def Fits (R : Nat → Prop) : Val → Prop
  | .null => True
  | .bool _ => True
  | .int i => -9223372036854775808 ≤ i ∧ i < 9223372036854775808
  | .real d => d < 18446744073709551616 ∧ R d
  | .str s => s.length + 5 < 2147483648
  | .arr l => l.len < 2147483648 ∧ FitsAll R l
  | .map l => l.len < 2147483648 ∧ FitsMap R l

def FitsAll (R : Nat → Prop) : Vals → Prop
  | .nil => True
  | .cons v l => Fits R v ∧ FitsAll R l

def FitsMap (R : Nat → Prop) : Maps → Prop
  | .nil => True
  | .cons k v l => k.length + 5 < 2147483648 ∧ Fits R v ∧ FitsMap R l
end

/-- What C34 promises for one value, whatever follows it in the buffer. -/
def RoundTrip (v : Val) : Prop :=
  Encodes v (enc v) ∧ (enc v).length = reserved v ∧
  ∀ bs rest : Bytes, Encodes v bs →
    Reads v (bs ++ rest) rest ∧ data_skip (bs ++ rest) = .ok rest

/-- C34 in full. -/
def Full : Prop := ∀ v, Fits (fun _ => True) v → RoundTrip v

/-- A double that `float` cannot hold exactly although it is between FLT_MIN and
FLT_MAX: the 29 low bits of the fraction are not zero. -/
def NeedsDouble (d : Nat) : Prop :=
  0x3810000000000000 ≤ d ∧ d ≤ 0x47EFFFFFE0000000 ∧ d % 2 ^ 29 ≠ 0

end Verif.C34
