import Verif.Model.Show
import Verif.Spec.C35
import Verif.Spec.Layout

/-! C64: SHOW tells what is there.

For every command the document that should be shown is given as a value (the
trees of C34), from the state alone; the answer should be a JSON text
(RFC 8259) for that value, whatever its layout. -/
namespace Verif.C64
open Data Decode Show C34 Spec

/-! JSON texts. -/

/-- White space. -/
def Ws (b : Bytes) : Prop := ∀ c ∈ b, c = 32 ∨ c = 9 ∨ c = 10 ∨ c = 13

/-- The value of decimal digits. -/
def value : Nat → Bytes → Option Nat
  | n, [] => some n
  | n, c :: r => if 48 ≤ c.toNat ∧ c.toNat ≤ 57 then value (10 * n + (c.toNat - 48)) r else none

/-- A natural number: digits, no zero in front. -/
def Natural (n : Nat) (t : Bytes) : Prop := value 0 t = some n ∧ t ≠ [] ∧ (t.head? = some 48 → t = [48])

/-- An integer. -/
def Integer (i : Int) (t : Bytes) : Prop :=
  (0 ≤ i ∧ Natural i.toNat t) ∨ (i < 0 ∧ ∃ u, t = 45 :: u ∧ Natural (-i).toNat u)

/-- The characters after a backslash and what they stand for. -/
def escapes : List (UInt8 × UInt8) :=
  [(34, 34), (92, 92), (47, 47), (98, 8), (102, 12), (110, 10), (114, 13), (116, 9)]

/-- A hexadecimal digit. -/
def hex (c : UInt8) : Option Nat :=
  if 48 ≤ c.toNat ∧ c.toNat ≤ 57 then some (c.toNat - 48)
  else if 97 ≤ c.toNat ∧ c.toNat ≤ 102 then some (c.toNat - 87)
  else if 65 ≤ c.toNat ∧ c.toNat ≤ 70 then some (c.toNat - 55)
  else none

/-- The inside of a quoted string and the string it stands for (`\u` for ASCII
only; that the bytes are UTF-8 is not asked). -/
inductive Chars : Bytes → Bytes → Prop where
  | nil : Chars [] []
  | plain (c : UInt8) (b s : Bytes) : 32 ≤ c.toNat → c ≠ 34 → c ≠ 92 → Chars b s → Chars (c :: b) (c :: s)
  | escape (e c : UInt8) (b s : Bytes) : (e, c) ∈ escapes → Chars b s → Chars (92 :: e :: b) (c :: s)
  | unicode (h l : UInt8) (m n : Nat) (c : UInt8) (b s : Bytes) : hex h = some m → hex l = some n →
      c.toNat = 16 * m + n → c.toNat < 128 → Chars b s → Chars (92 :: 117 :: 48 :: 48 :: h :: l :: b) (c :: s)

/-- A string. -/
def Quoted (s t : Bytes) : Prop := ∃ b, Chars b s ∧ t = [34] ++ b ++ [34]

mutual
/-- `t` is a JSON text for the value (no white space around it).  The text of a
real is not looked at. -/
def IsJson : Val → Bytes → Prop
  | .null, t => t = cstr "null"
  | .bool b, t => t = if b then cstr "true" else cstr "false"
  | .int i, t => Integer i t
  | .real _, _ => True
  | .str s, t => Quoted s t
  | .arr l, t => ∃ b, IsItems l b ∧ t = [91] ++ b ++ [93]
  | .map l, t => ∃ b, IsEntries l b ∧ t = [123] ++ b ++ [125]

/-- What stands between the brackets. -/
def IsItems : Vals → Bytes → Prop
  | .nil, b => Ws b
  | .cons v l, b => ∃ w1 t w2 r, Ws w1 ∧ IsJson v t ∧ Ws w2 ∧ b = w1 ++ t ++ w2 ++ r ∧
      ((l.len = 0 ∧ r = []) ∨ (0 < l.len ∧ ∃ r', r = [44] ++ r' ∧ IsItems l r'))

/-- What stands between the braces. -/
def IsEntries : Maps → Bytes → Prop
  | .nil, b => Ws b
  | .cons k v l, b => ∃ w1 q w2 w3 t w4 r, Ws w1 ∧ Quoted k q ∧ Ws w2 ∧ Ws w3 ∧ IsJson v t ∧ Ws w4 ∧
      b = w1 ++ q ++ w2 ++ [58] ++ w3 ++ t ++ w4 ++ r ∧
      ((l.len = 0 ∧ r = []) ∨ (0 < l.len ∧ ∃ r', r = [44] ++ r' ∧ IsEntries l r'))
end

/-! The documents. -/

/-- An array. -/
def items : List Val → Vals
  | [] => .nil
  | v :: l => .cons v (items l)

/-- An object with any keys. -/
def entries : List (Bytes × Val) → Maps
  | [] => .nil
  | (k, v) :: l => .cons k v (entries l)

/-- An object with the given keys. -/
def obj (l : List (String × Val)) : Val := .map (entries (l.map fun e => (cstr e.1, e.2)))

/-- A number that may be missing. -/
def numberOr (d : Int) : Option Nat → Int
  | some n => n
  | none => d

/-- Memory. -/
def memoryDoc (m : Mm) : Val := obj
  [("pages", .int m.count), ("pages_used", .int (m.count - m.freeCount)), ("pages_free", .int m.freeCount),
   ("page_size", .int (m.pageSize + 16)), ("limit", .bool m.limit), ("limit_wm", .int m.limitWm),
   ("limit_behaviour", .str (if m.limitError then cstr "error" else cstr "block")),
   ("limit_hits", .int m.hits), ("cache", .int m.cache)]

/-- The value of a variable (numbers are 64-bit signed numbers to the user). -/
def VarDoc (v : Config.Var) (x : Val) : Prop :=
  match v.type with
  | .bool => x = .bool (v.int ≠ 0)
  | .int => x = .int (toS64 v.int)
  | .string => x = .str v.str
  | .data => C35.Holds x v.str

/-- A variable of the given name. -/
def Var (w : World) (name : String) (v : Config.Var) : Prop := v ∈ w.vars ∧ v.name = cstr name

/-- The log: its settings, the last number given, the first file (-1 for none)
and the number of files. -/
def WalDoc (w : World) (x : Val) : Prop :=
  ∃ active rotate_wm sync_on_rotate sync_on_write crc lsn,
    Var w "wal" active ∧ Var w "wal_rotate_wm" rotate_wm ∧ Var w "wal_sync_on_rotate" sync_on_rotate ∧
    Var w "wal_sync_on_write" sync_on_write ∧ Var w "wal_crc" crc ∧ Var w "lsn" lsn ∧
    x = obj [("active", .bool (active.int ≠ 0)), ("rotate_wm", .int rotate_wm.int),
      ("sync_on_rotate", .bool (sync_on_rotate.int ≠ 0)), ("sync_on_write", .bool (sync_on_write.int ≠ 0)),
      ("crc", .bool (crc.int ≠ 0)), ("lsn", .int lsn.int),
      ("lsn_min", .int (numberOr (-1) w.wal.min?)),
      ("files", .int w.wal.length)]

/-- A cloud. -/
def cloudDoc (c : CloudConfig) : Val := obj
  [("name", .str c.name), ("type", .str c.type), ("login", .str c.login), ("password", .str (cstr "(secret)")),
   ("url", .str c.url), ("debug", .bool c.debug)]

/-- The configuration of a storage. -/
def sourceDoc (s : Source) (debug : Bool) : Val := obj
  [("uuid", .str (if debug then cstr "(filtered)" else s.uuid.text.map UInt8.ofNat)),
   ("name", .str s.name), ("path", .str s.path), ("cloud", .str s.cloud),
   ("cloud_drop_local", .bool s.cloud_drop_local), ("sync", .bool s.sync), ("crc", .bool s.crc),
   ("refresh_wm", .int s.refresh_wm), ("region_size", .int s.region_size), ("compression", .str s.compression),
   ("compression_level", .int s.compression_level), ("encryption", .str s.encryption)]

/-! Of a partition: is it on the storage, on the cloud, what is in the file and
what in memory. -/
def onStorage (p : Show.Part) : Bool := p.state.testBit 0
def onCloud (p : Show.Part) : Bool := p.state.testBit 3
def inFile (f : Io.Index → Nat) (p : Show.Part) : Nat := if p.state = 0 then 0 else f p.index
def inHeap (p : Show.Part) : Nat := p.count_a + p.count_b
def heapSize (m : Mm) (p : Show.Part) : Int := (p.pages_a + p.pages_b) * (m.pageSize + 16)

/-- The sum over partitions. -/
def total (ps : List Show.Part) (f : Show.Part → Int) : Int := (ps.map f).sum

/-- The statistics of a storage with these partitions. -/
def statsDoc (m : Mm) (ps : List Show.Part) : Val := obj
  [("min", .int (numberOr 0 (ps.map (·.min)).min?)),
   ("max", .int (numberOr 0 (ps.map (·.max)).max?)),
   ("partitions", .int ps.length), ("partitions_local", .int (ps.countP onStorage)),
   ("partitions_cloud", .int (ps.countP onCloud)), ("regions", .int (total ps fun p => inFile (·.regions) p)),
   ("events", .int (total ps fun p => inFile (·.events) p + inHeap p)),
   ("events_heap", .int (total ps fun p => inHeap p)), ("size", .int (total ps fun p => inFile (·.size_total) p)),
   ("size_uncompressed", .int (total ps fun p => inFile (·.size_total_origin) p)),
   ("size_heap", .int (total ps (heapSize m)))]

/-- A storage. -/
def storageDoc (w : World) (s : Storage) (debug : Bool) : Val := obj
  [("config", sourceDoc s.source debug), ("stats", statsDoc w.mem (s.parts.map w.part))]

/-- The index of a partition file. -/
def indexDoc (p : Show.Part) : Val :=
  if p.state = 0 then .null else obj
  [("size", .int p.index.size), ("size_origin", .int p.index.size_origin),
   ("size_regions", .int p.index.size_regions), ("size_regions_origin", .int p.index.size_regions_origin),
   ("size_total", .int p.index.size_total), ("size_total_origin", .int p.index.size_total_origin),
   ("regions", .int p.index.regions), ("events", .int p.index.events), ("refreshes", .int p.index.refreshes),
   ("lsn", .int p.index.lsn), ("compression", .int p.index.compression), ("encryption", .int p.index.encryption)]

/-- A partition, given the name of its storage. -/
def partDoc (m : Mm) (p : Show.Part) (storage : Bytes) (debug : Bool) : Val := obj (
  [("min", .int p.min), ("max", .int p.max), ("events", .int (inFile (·.events) p + inHeap p)),
   ("events_heap", .int (inHeap p)), ("regions", .int (inFile (·.regions) p)),
   ("size", .int (inFile (·.size_total) p)), ("size_uncompressed", .int (inFile (·.size_total_origin) p)),
   ("size_heap", .int (heapSize m p)),
   ("created", if debug then .str (cstr "(filtered)") else .int p.time_create),
   ("refreshed", if debug then .str (cstr "(filtered)") else .int p.time_refresh),
   ("refreshes", .int p.index.refreshes), ("on_storage", .bool (onStorage p)), ("on_cloud", .bool (onCloud p)),
   ("storage", .str storage)] ++ if debug then [("index", indexDoc p)] else [])

/-- A partition of the database, with its storage. -/
def PartDoc (w : World) (debug : Bool) (p : Show.Part) (x : Val) : Prop :=
  ∃ s ∈ w.storages, s.uid = p.source ∧ x = partDoc w.mem p s.source.name debug

/-- A tier of the pipeline. -/
def tierDoc (t : TierConfig) : Val := obj
  [("name", .str t.name), ("partitions", .int t.partitions), ("size", .int t.size), ("events", .int t.events),
   ("duration", .int t.duration)]

/-- Hidden variables (VAR_H, VAR_S) are not listed. -/
def Listed (v : Config.Var) : Bool := !(v.flags.testBit 2 || v.flags.testBit 3)

/-- Two lists, element by element. -/
def Each {α β : Type} (R : α → β → Prop) : List α → List β → Prop
  | [], [] => True
  | a :: l, b :: m => R a b ∧ Each R l m
  | _, _ => False

/-- What should be shown for one item, `none` for the error that there is no such
thing.  `L` are the partitions of the database in order. -/
def Answer (w : World) (L : List (Slice Nat)) (op : Parse.ShowOp) (r : Option Val) : Prop :=
  match op.type, op.name with
  | .memory, _ => r = some (memoryDoc w.mem)
  | .wal, _ => ∃ x, WalDoc w x ∧ r = some x
  | .clouds, .name n =>
    (∃ c ∈ w.clouds, c.name = Parse.str n ∧ r = some (cloudDoc c)) ∨ ((∀ c ∈ w.clouds, c.name ≠ Parse.str n) ∧ r = none)
  | .clouds, _ => r = some (.map (entries (w.clouds.map fun c => (c.name, cloudDoc c))))
  | .storages, .name n =>
    (∃ s ∈ w.storages, s.source.name = Parse.str n ∧ r = some (storageDoc w s op.debug)) ∨
    ((∀ s ∈ w.storages, s.source.name ≠ Parse.str n) ∧ r = none)
  | .storages, _ => r = some (.map (entries (w.storages.map fun s => (s.source.name, storageDoc w s op.debug))))
  | .partition, .int n =>
    (∃ s ∈ L, Covers s n ∧ ∃ x, PartDoc w op.debug (w.part s.val) x ∧ r = some x) ∨ ((∀ s ∈ L, ¬ Covers s n) ∧ r = none)
  | .partition, _ => False
  | .partitions, .name n =>
    (∃ st ∈ w.storages, st.source.name = Parse.str n ∧ ∃ xs,
      Each (PartDoc w op.debug) ((L.map fun s => w.part s.val).filter fun p => p.source == st.uid) xs ∧
      r = some (.arr (items xs))) ∨
    ((∀ st ∈ w.storages, st.source.name ≠ Parse.str n) ∧ r = none)
  | .partitions, _ => ∃ xs, Each (PartDoc w op.debug) (L.map fun s => w.part s.val) xs ∧ r = some (.arr (items xs))
  | .pipeline, _ => r = some (.arr (items (w.tiers.map tierDoc)))
  | .config, _ => ∃ xs, Each VarDoc (w.vars.filter Listed) xs ∧
      r = some (.map (entries (((w.vars.filter Listed).map (·.name)).zip xs)))
  | .name, t => ∃ n, (t = .name n ∨ ∃ e, t = .string n e) ∧
      ((∃ v ∈ w.vars, v.name = Parse.str n ∧ ∃ x, VarDoc v x ∧ r = some x) ∨ ((∀ v ∈ w.vars, v.name ≠ Parse.str n) ∧ r = none))

/-- The state of an open database: numbers are within their C types, names are
unique, log files are in order, the mapping holds the partitions `L`, and every
partition belongs to a storage. -/
structure Consistent (w : World) (L : List (Slice Nat)) : Prop where
  pages : 0 ≤ w.mem.freeCount ∧ w.mem.freeCount ≤ w.mem.count ∧ w.mem.count < 2147483648
  page : 0 ≤ w.mem.pageSize ∧ w.mem.pageSize + 16 < 2147483648
  vars : C35.Table w.vars
  ints : ∀ v ∈ w.vars, v.int < 18446744073709551616
  wal : w.wal.Pairwise (· < ·)
  clouds : (w.clouds.map (·.name)).Nodup
  storages : (w.storages.map (·.source.name)).Nodup
  uids : (w.storages.map (·.uid)).Nodup
  list : Rb.inorder w.map.tree = L
  count : w.map.count = L.length
  apart : L.Pairwise (fun a b => a.max < b.min)
  range : ∀ s ∈ L, s.min ≤ s.max ∧ s.max < 18446744073709551616
  parts : ∀ s ∈ L, ∃ st ∈ w.storages, st.uid = (w.part s.val).source
  ids : ∀ st ∈ w.storages, ∀ a ∈ st.parts, (w.part a).min < 18446744073709551616
  lists : ∀ st ∈ w.storages, st.parts.length < 2147483648

/-- A string that is its own text: no control characters, quotes, backslashes. -/
def CleanStr (s : Bytes) : Prop := s.length + 5 < 2147483648 ∧ ∀ c ∈ s, 32 ≤ c.toNat ∧ c ≠ 34 ∧ c ≠ 92

mutual
/-- The documents that are shown rightly: no reals, signed 64-bit integers,
strings that are their own texts. -/
def Clean : Val → Prop
  | .null => True
  | .bool _ => True
  | .int i => -9223372036854775808 ≤ i ∧ i < 9223372036854775808
  | .real _ => False
  | .str s => CleanStr s
  | .arr l => l.len < 2147483648 ∧ CleanAll l
  | .map l => l.len < 2147483648 ∧ CleanMap l
def CleanAll : Vals → Prop
  | .nil => True
  | .cons v l => Clean v ∧ CleanAll l
def CleanMap : Maps → Prop
  | .nil => True
  | .cons k v l => CleanStr k ∧ Clean v ∧ CleanMap l
end

/-- What should be shown for a whole command. -/
def document : List Val → Val → Prop
  | [x], y => y = x
  | xs, y => y = .arr (items xs)

/-- What SHOW does is right: a JSON text for the document, or an error if
something asked for is not there.  `d` is the stack that is left. -/
def Right (fmt : Nat → Bytes) (d : Nat) (w : World) (L : List (Slice Nat)) (ops : List Parse.ShowOp) : Prop :=
  (∀ xs y, Each (fun op x => Answer w L op (some x)) ops xs → document xs y → C35.depth y ≤ d →
    ∃ t, execute_show fmt d w ops = .ok t ∧ IsJson y t) ∧
  ((∃ op ∈ ops, Answer w L op none) → ∃ e, execute_show fmt d w ops = .err e)

/-- The number of a partition that is asked for and those of the partitions are
below 2^63, and it is near one (see C03). -/
def Fits (L : List (Slice Nat)) (op : Parse.ShowOp) : Prop :=
  op.type = .partition → ∀ n, op.name = .int n →
    n < 9223372036854775808 ∧ (∀ s ∈ L, s.max < 9223372036854775808) ∧ Near L n

/-- C64 in full. -/
def Full : Prop :=
  ∀ fmt d env text ops w L, Parse.parse env text = .ok (.show ops) → Consistent w L → Right fmt d w L ops

end Verif.C64
