import Verif.Model.Parse
import Verif.Spec.C47

/-! C58: a command is understood as written.  The text of a command is a sequence
of items; the grammar says which items make up which command. -/
namespace Verif.C58
open Lex Parse

/-! ### Items -/

/-- A word, a number (with its unit), a string or a symbol. -/
inductive Item where
  | word (s : List Nat)
  | int (n : Nat)
  | string (s : List Nat)
  | symbol (c : Nat)
deriving Repr, DecidableEq

/-- The reserved words. -/
def keywords : List String :=
  ["true", "false", "set", "reset", "to", "show", "all", "config", "checkpoint", "service", "create", "storage",
   "storages", "partition", "partitions", "if", "not", "exists", "drop", "pipeline", "alter", "rename", "move",
   "between", "and", "into", "refresh", "rebalance", "on", "cloud", "clouds", "download", "upload", "verbose",
   "debug", "wal", "memory"]

/-- The units and their factors, as they are in the code; that `min`, month and
year are wrong is part of C47. -/
def units : List (String × Nat) :=
  let sec := 1000000
  let day := 24 * 3600 * sec
  [("us", 1), ("microsecond", 1), ("microseconds", 1), ("ms", 1000), ("millisecond", 1000), ("milliseconds", 1000),
   ("sec", sec), ("second", sec), ("seconds", sec), ("mi", 60 * sec), ("minute", 60 * sec), ("minutes", 60 * sec),
   ("hr", 3600 * sec), ("hour", 3600 * sec), ("hours", 3600 * sec), ("day", day), ("days", day),
   ("week", 7 * day), ("weeks", 7 * day), ("month", 210 * day), ("months", 210 * day),
   ("year", 2520 * day), ("years", 2520 * day),
   ("kb", 1000), ("kib", 1024), ("k", 1024), ("mb", 1000 ^ 2), ("mib", 1024 ^ 2), ("m", 1024 ^ 2),
   ("gb", 1000 ^ 3), ("gib", 1024 ^ 3), ("g", 1024 ^ 3), ("tb", 1000 ^ 4), ("tib", 1024 ^ 4), ("t", 1024 ^ 4)]

/-- The word is a unit with this factor, in any letter case. -/
def Unit' (s : List Nat) (f : Nat) : Prop := ∃ w, (w, f) ∈ units ∧ s.map lower = bytes w

/-- A word that cannot be a name. -/
def Reserved (s : List Nat) : Prop := (∃ n ∈ keywords, s.map lower = bytes n) ∨ ∃ f, Unit' s f

/-! ### Text -/

/-- White space and comments between items. -/
inductive Gap : List Nat → Prop
  | nil : Gap []
  | space {c g} : (c = 32 ∨ (9 ≤ c ∧ c ≤ 13)) → Gap g → Gap (c :: g)
  | comment {t g} : (∀ c ∈ t, c ≠ 10) → Gap g → Gap (35 :: t ++ 10 :: g)

/-- The same at the end of the text: the last comment need not end. -/
inductive Tail : List Nat → Prop
  | gap {g} : Gap g → Tail g
  | comment {g t} : Gap g → (∀ c ∈ t, c ≠ 10) → Tail (g ++ 35 :: t)

/-- A word starts with a letter or '_' and goes on with these, digits, '.' and '$'. -/
def IsWord : List Nat → Prop
  | [] => False
  | c :: s => (isAlpha c = true ∨ c = 95) ∧ ∀ d ∈ s, isAlpha d = true ∨ isDigit d = true ∨ d = 95 ∨ d = 46 ∨ d = 36

/-- A number ends here: nothing of a number, and not a float. -/
def EndsNumber (rest : List Nat) : Prop :=
  ∀ c r, rest = c :: r → c < 128 ∧ isDigit c = false ∧ c ≠ 46 ∧ c ≠ 101 ∧ c ≠ 69

/-- What may be between quotes `q`: a quote or backslash only after a backslash,
and no line end. -/
inductive Body (q : Nat) : List Nat → Prop
  | nil : Body q []
  | plain {c s} : c ≠ q → c ≠ 10 → c ≠ 92 → Body q s → Body q (c :: s)
  | escaped {c s} : c ≠ 10 → Body q s → Body q (92 :: c :: s)

/-- A symbol. -/
def IsSymbol (c : Nat) : Prop := isPunct c = true ∧ c ≠ 34 ∧ c ≠ 39 ∧ c ≠ 95 ∧ c ≠ 35

/-- The text is made of these items. -/
inductive Text : List Item → List Nat → Prop
  | nil {g} : Tail g → Text [] g
  | word {g s l rest} : Gap g → IsWord s → C47.EndsWord rest → Text l rest → Text (.word s :: l) (g ++ s ++ rest)
  | int {g s l rest} : Gap g → C47.IsNumber s → EndsNumber rest → Text l rest →
      (∀ w l' f, l = .word w :: l' → ¬ Unit' w f) → Text (.int (C47.value s % 18446744073709551616) :: l) (g ++ s ++ rest)
  | unit {g s g' w f l rest} : Gap g → C47.IsNumber s → EndsNumber (g' ++ w ++ rest) → Gap g' → IsWord w → Unit' w f →
      C47.EndsWord rest → Text l rest →
      Text (.int (C47.value s * f % 18446744073709551616) :: l) (g ++ s ++ (g' ++ w ++ rest))
  | string {g q s l rest} : Gap g → (q = 34 ∨ q = 39) → Body q s → Text l rest →
      Text (.string s :: l) (g ++ q :: s ++ q :: rest)
  | symbol {g c l rest} : Gap g → IsSymbol c → Text l rest → Text (.symbol c :: l) (g ++ c :: rest)

/-! ### Grammar -/

/-- Where the code departs from the grammar of its comments. -/
structure Dialect where
  /-- A number of 2^63 or more as a value of an option is taken as negative. -/
  negative : Bool
  /-- After an empty list of tier options the next tier must follow at once. -/
  nocomma : Bool

/-- The grammar as it should be. -/
def documented : Dialect := ⟨false, false⟩

/-- The grammar as it is in the code. -/
def code : Dialect := ⟨true, true⟩

/-- A keyword, in any letter case. -/
def Kw (n : String) (a : Item) : Prop := ∃ s, a = .word s ∧ s.map lower = bytes n

/-- A name. -/
def Name (s : List Nat) (a : Item) : Prop := a = .word s ∧ ¬ Reserved s

inductive IfNotExists : Bool → List Item → Prop
  | no : IfNotExists false []
  | yes {a b c} : Kw "if" a → Kw "not" b → Kw "exists" c → IfNotExists true [a, b, c]

inductive IfExists : Bool → List Item → Prop
  | no : IfExists false []
  | yes {a b} : Kw "if" a → Kw "exists" b → IfExists true [a, b]

inductive IfCloud : Bool → List Item → Prop
  | no : IfCloud false []
  | yes {a b} : Kw "if" a → Kw "cloud" b → IfCloud true [a, b]

inductive Debug : Bool → List Item → Prop
  | no : Debug false []
  | yes {a} : Kw "debug" a → Debug true [a]

/-- `[ON STORAGE | ON CLOUD]`; the mask has ID (1) and ID_CLOUD (8). -/
inductive On : Nat → List Item → Prop
  | both : On 9 []
  | storage {a b} : Kw "on" a → Kw "storage" b → On 1 [a, b]
  | cloud {a b} : Kw "on" a → Kw "cloud" b → On 8 [a, b]

inductive Between : Nat → Nat → List Item → Prop
  | mk {a b min max} : Kw "between" a → Kw "and" b → Between min max [a, .int min, b, .int max]

/-- The value of an option that is a number. -/
def Number (d : Dialect) (n : Nat) (i : Int) : Prop :=
  (n < 9223372036854775808 ∧ i = n) ∨ (d.negative = true ∧ 9223372036854775808 ≤ n ∧ i = toS64 n)

inductive Truth : Bool → Item → Prop
  | t {a} : Kw "true" a → Truth true a
  | f {a} : Kw "false" a → Truth false a

/-- One option of a cloud; with the bit for the mask. -/
inductive CloudOpt : CloudConfig → List Nat → Item → CloudConfig → Nat → Prop
  | type {c s} : CloudOpt c (bytes "type") (.string s) { c with type := str s } 2
  | url {c s} : CloudOpt c (bytes "url") (.string s) { c with url := str s } 16
  | login {c s} : CloudOpt c (bytes "login") (.string s) { c with login := str s } 4
  | password {c s} : CloudOpt c (bytes "password") (.string s) { c with password := str s } 8
  | access_key {c s} : CloudOpt c (bytes "access_key") (.string s) { c with login := str s } 4
  | secret_key {c s} : CloudOpt c (bytes "secret_key") (.string s) { c with password := str s } 8
  | debug {c b v} : Truth b v → CloudOpt c (bytes "debug") v { c with debug := b } 32

/-- One option of a storage. -/
inductive StorageOpt (d : Dialect) : Source → List Nat → Item → Source → Nat → Prop
  | uuid {c s u} : Uuid.fromString c.uuid s = some u → StorageOpt d c (bytes "uuid") (.string s) { c with uuid := u } 1
  | path {c s} : StorageOpt d c (bytes "path") (.string s) { c with path := str s } 4
  | cloud {c s} : StorageOpt d c (bytes "cloud") (.string s) { c with cloud := str s } 8
  | drop_local {c b v} : Truth b v → StorageOpt d c (bytes "cloud_drop_local") v { c with cloud_drop_local := b } 16
  | sync {c b v} : Truth b v → StorageOpt d c (bytes "sync") v { c with sync := b } 32
  | crc {c b v} : Truth b v → StorageOpt d c (bytes "crc") v { c with crc := b } 64
  | refresh_wm {c n i} : Number d n i → StorageOpt d c (bytes "refresh_wm") (.int n) { c with refresh_wm := i } 128
  | region_size {c n i} : Number d n i → i ≠ 0 →
      StorageOpt d c (bytes "region_size") (.int n) { c with region_size := i } 256
  | compression {c s} : s = [] ∨ s = bytes "none" ∨ s = bytes "zstd" ∨ s = bytes "lz4" →
      StorageOpt d c (bytes "compression") (.string s) { c with compression := str s } 512
  | level {c n i} : Number d n i → StorageOpt d c (bytes "compression_level") (.int n) { c with compression_level := i } 1024
  | encryption {c s} : str s = [] ∨ str s = str (bytes "none") ∨ str s = str (bytes "aes") →
      StorageOpt d c (bytes "encryption") (.string s) { c with encryption := str s } 2048
  | encryption_key {c s} : s = [] ∨ s.length = 32 →
      StorageOpt d c (bytes "encryption_key") (.string s) { c with encryption_key := str s } 4096

/-- One option of a tier. -/
inductive TierOpt (d : Dialect) : TierConfig → List Nat → Item → TierConfig → Nat → Prop
  | partitions {c n i} : Number d n i → TierOpt d c (bytes "partitions") (.int n) { c with partitions := i } 0
  | size {c n i} : Number d n i → TierOpt d c (bytes "size") (.int n) { c with size := i } 0
  | events {c n i} : Number d n i → TierOpt d c (bytes "events") (.int n) { c with events := i } 0
  | duration {c n i} : Number d n i → TierOpt d c (bytes "duration") (.int n) { c with duration := i } 0

/-- `name value, name value ...` and what they make of a configuration and mask. -/
inductive Opts {σ : Type} (one : σ → List Nat → Item → σ → Nat → Prop) : σ → Nat → List Item → σ → Nat → Prop
  | last {c m s v c' b} : one c s v c' b → Opts one c m [.word s, v] c' (m ||| b)
  | more {c m s v c' b l c'' m'} : one c s v c' b → Opts one c' (m ||| b) l c'' m' →
      Opts one c m (.word s :: v :: .symbol 44 :: l) c'' m'

/-- `[(options)]`. -/
inductive Options {σ : Type} (one : σ → List Nat → Item → σ → Nat → Prop) : σ → List Item → σ → Nat → Prop
  | none {c} : Options one c [] c 0
  | empty {c} : Options one c [.symbol 40, .symbol 41] c 0
  | some {c l c' m} : Opts one c 0 l c' m → Options one c (.symbol 40 :: l ++ [.symbol 41]) c' m

/-- `storage_name [(tier_options)] [, ...]`. -/
inductive Tiers (d : Dialect) : List TierConfig → List Item → Prop
  | last {s a} : Name s a → Tiers d [{ TierConfig.allocate with name := str s }] [a]
  | lastOpts {s a l c m} : Name s a → Opts (TierOpt d) { TierConfig.allocate with name := str s } 0 l c m →
      Tiers d [c] (a :: .symbol 40 :: l ++ [.symbol 41])
  | lastEmpty {s a} : d.nocomma = false → Name s a →
      Tiers d [{ TierConfig.allocate with name := str s }] [a, .symbol 40, .symbol 41]
  | more {s a cs l} : Name s a → Tiers d cs l →
      Tiers d ({ TierConfig.allocate with name := str s } :: cs) (a :: .symbol 44 :: l)
  | moreOpts {s a l c m cs l'} : Name s a → Opts (TierOpt d) { TierConfig.allocate with name := str s } 0 l c m →
      Tiers d cs l' → Tiers d (c :: cs) (a :: .symbol 40 :: l ++ .symbol 41 :: .symbol 44 :: l')
  | moreEmpty {s a cs l} : d.nocomma = false → Name s a → Tiers d cs l →
      Tiers d ({ TierConfig.allocate with name := str s } :: cs) (a :: .symbol 40 :: .symbol 41 :: .symbol 44 :: l)
  | nocomma {s a cs l} : d.nocomma = true → Name s a → Tiers d cs l →
      Tiers d ({ TierConfig.allocate with name := str s } :: cs) (a :: .symbol 40 :: .symbol 41 :: l)

/-- The token of an item outside names: it is kept as it is by SET, which checks it
against the variable later (C32). -/
def token : Item → Token
  | .word s => match findKeyword s with
    | some k => .keyword k s
    | none => .name s
  | .int n => .int n
  | .string s => .string s (s.contains 92)
  | .symbol c => .symbol c

/-- One thing to show. -/
inductive ShowOps1 : ShowOp → List Item → Prop
  | memory {a d l} : Kw "memory" a → Debug d l → ShowOps1 ⟨.memory, token a, d⟩ (a :: l)
  | wal {a d l} : Kw "wal" a → Debug d l → ShowOps1 ⟨.wal, token a, d⟩ (a :: l)
  | cloud {a s b d l} : Kw "cloud" a → Name s b → Debug d l → ShowOps1 ⟨.clouds, .name s, d⟩ (a :: b :: l)
  | clouds {a d l} : Kw "clouds" a → Debug d l → ShowOps1 ⟨.clouds, token a, d⟩ (a :: l)
  | storage {a s b d l} : Kw "storage" a → Name s b → Debug d l → ShowOps1 ⟨.storages, .name s, d⟩ (a :: b :: l)
  | storages {a d l} : Kw "storages" a → Debug d l → ShowOps1 ⟨.storages, token a, d⟩ (a :: l)
  | partition {a n d l} : Kw "partition" a → Debug d l → ShowOps1 ⟨.partition, .int n, d⟩ (a :: .int n :: l)
  | partitionsOf {a s b d l} : Kw "partitions" a → Name s b → Debug d l → ShowOps1 ⟨.partitions, .name s, d⟩ (a :: b :: l)
  | partitions {a d l} : Kw "partitions" a → Debug d l → ShowOps1 ⟨.partitions, token a, d⟩ (a :: l)
  | pipeline {a d l} : Kw "pipeline" a → Debug d l → ShowOps1 ⟨.pipeline, token a, d⟩ (a :: l)
  | configOf {a s d l} : Kw "config" a ∨ Kw "all" a → Debug d l → ShowOps1 ⟨.name, .name s, d⟩ (a :: .word s :: l)
  | configStr {a s d l} : Kw "config" a ∨ Kw "all" a → Debug d l →
      ShowOps1 ⟨.name, token (.string s), d⟩ (a :: .string s :: l)
  | config {a} : Kw "config" a ∨ Kw "all" a → ShowOps1 ⟨.config, token a, false⟩ [a]
  | name {s a d l} : Name s a → Debug d l → ShowOps1 ⟨.name, .name s, d⟩ (a :: l)
  | str {s d l} : Debug d l → ShowOps1 ⟨.name, token (.string s), d⟩ (.string s :: l)

/-- Things to show, with commas. -/
inductive ShowOps : List ShowOp → List Item → Prop
  | last {op l} : ShowOps1 op l → ShowOps [op] l
  | more {op l ops l'} : ShowOps1 op l → ShowOps ops l' → ShowOps (op :: ops) (l ++ .symbol 44 :: l')

/-- The configuration CREATE STORAGE starts from. -/
def newStorage (env : Env) (s : List Nat) : Source :=
  { Source.allocate with
    name := str s
    uuid := env.uuid
    compression := if env.compression = [] then [] else env.compression
    compression_level := if env.compression = [] then 0 else env.compressionLevel }

/-- An encrypted storage without a key gets one. -/
def withKey (env : Env) (c : Source) : Source :=
  if c.encryption_key = [] ∧ c.encryption ≠ [] ∧ c.encryption ≠ str (bytes "none") then { c with encryption_key := env.key } else c

/-- The items are this command. -/
inductive Says (d : Dialect) (env : Env) : Cmd → List Item → Prop
  | empty : Says d env .empty []
  | show_ {a ops l} : Kw "show" a → ShowOps ops l → Says d env (.show ops) (a :: l)
  | set {a s b v} : Kw "set" a → Kw "to" b → Says d env (.set s (token v)) [a, .word s, b, v]
  | setEnd {a s b} : Kw "set" a → Kw "to" b → Says d env (.set s .eof) [a, .word s, b]
  | walCreate {a} : Kw "debug" a → Says d env (.debug 0) [a, .string (bytes "wal_create")]
  | walGc {a} : Kw "debug" a → Says d env (.debug 1) [a, .string (bytes "wal_gc")]
  | walRead {a} : Kw "debug" a → Says d env (.debug 2) [a, .string (bytes "wal_read")]
  | memoryGc {a} : Kw "debug" a → Says d env (.debug 3) [a, .string (bytes "memory_gc")]
  | checkpoint {a} : Kw "checkpoint" a → Says d env .checkpoint [a]
  | service {a} : Kw "service" a → Says d env .service [a]
  | rebalance {a} : Kw "rebalance" a → Says d env .rebalance [a]
  | cloudCreate {a b e l s c l' cfg m} : Kw "create" a → Kw "cloud" b → IfNotExists e l → Name s c →
      Options CloudOpt { CloudConfig.allocate with name := str s } l' cfg m →
      Says d env (.cloudCreate e cfg) (a :: b :: l ++ c :: l')
  | cloudDrop {a b e l s c} : Kw "drop" a → Kw "cloud" b → IfExists e l → Name s c →
      Says d env (.cloudDrop e s) (a :: b :: l ++ [c])
  | cloudRename {a b e l s c f s' g} : Kw "alter" a → Kw "cloud" b → IfExists e l → Name s c → Kw "rename" f → Name s' g →
      Says d env (.cloudRename e s s') (a :: b :: l ++ [c, f, g])
  | cloudRenameTo {a b e l s c f t s' g} : Kw "alter" a → Kw "cloud" b → IfExists e l → Name s c → Kw "rename" f → Kw "to" t →
      Name s' g → Says d env (.cloudRename e s s') (a :: b :: l ++ [c, f, t, g])
  | cloudAlter {a b e l s c f l' cfg m} : Kw "alter" a → Kw "cloud" b → IfExists e l → Name s c → Kw "set" f →
      Options CloudOpt { CloudConfig.allocate with name := str s } l' cfg m → m &&& 2 = 0 →
      Says d env (.cloudAlter e s cfg m) (a :: b :: l ++ c :: f :: l')
  | storageCreate {a b e l s c l' cfg m} : Kw "create" a → Kw "storage" b → IfNotExists e l → Name s c →
      Options (StorageOpt d) (newStorage env s) l' cfg m →
      Says d env (.storageCreate e (withKey env cfg)) (a :: b :: l ++ c :: l')
  | storageDrop {a b e l s c} : Kw "drop" a → Kw "storage" b → IfExists e l → Name s c →
      Says d env (.storageDrop e s) (a :: b :: l ++ [c])
  | storageRename {a b e l s c f s' g} : Kw "alter" a → Kw "storage" b → IfExists e l → Name s c → Kw "rename" f → Name s' g →
      Says d env (.storageRename e s s') (a :: b :: l ++ [c, f, g])
  | storageRenameTo {a b e l s c f t s' g} : Kw "alter" a → Kw "storage" b → IfExists e l → Name s c → Kw "rename" f →
      Kw "to" t → Name s' g → Says d env (.storageRename e s s') (a :: b :: l ++ [c, f, t, g])
  | storageAlter {a b e l s c f l' cfg m} : Kw "alter" a → Kw "storage" b → IfExists e l → Name s c → Kw "set" f →
      Options (StorageOpt d) { Source.allocate with name := str s } l' cfg m → m &&& 1 = 0 →
      Says d env (.storageAlter e s cfg m) (a :: b :: l ++ c :: f :: l')
  | pipelineReset {a b c} : Kw "alter" a → Kw "pipeline" b → Kw "reset" c → Says d env (.pipelineAlter []) [a, b, c]
  | pipelineSet {a b c cs l} : Kw "alter" a → Kw "pipeline" b → Kw "set" c → Tiers d cs l →
      Says d env (.pipelineAlter cs) (a :: b :: c :: l)
  | create {a b min max} : Kw "create" a → Kw "partition" b →
      Says d env (.partition { type := .create, min := min, max := max }) [a, b, .int min, .int max]
  | create1 {a b min} : Kw "create" a → Kw "partition" b →
      Says d env (.partition { type := .create, min := min, max := (min + env.interval) % 18446744073709551616 }) [a, b, .int min]
  | drop {a b e l n m l'} : Kw "drop" a → Kw "partition" b → IfExists e l → On m l' →
      Says d env (.partition { type := .drop, min := n, ifExists := e, mask := m }) (a :: b :: l ++ .int n :: l')
  | dropRange {a b min max l m l'} : Kw "drop" a → Kw "partitions" b → Between min max l → On m l' →
      Says d env (.partition { type := .dropRange, min := min, max := max, mask := m }) (a :: b :: l ++ l')
  | move {a b e l n c s f} : Kw "move" a → Kw "partition" b → IfExists e l → Kw "into" c → Name s f →
      Says d env (.partition { type := .move, min := n, ifExists := e, storage := s }) (a :: b :: l ++ [.int n, c, f])
  | moveRange {a b min max l c s f} : Kw "move" a → Kw "partitions" b → Between min max l → Kw "into" c → Name s f →
      Says d env (.partition { type := .moveRange, min := min, max := max, storage := s }) (a :: b :: l ++ [c, f])
  | refresh {a b e l n} : Kw "refresh" a → Kw "partition" b → IfExists e l →
      Says d env (.partition { type := .refresh, min := n, ifExists := e }) (a :: b :: l ++ [.int n])
  | refreshRange {a b min max l} : Kw "refresh" a → Kw "partitions" b → Between min max l →
      Says d env (.partition { type := .refreshRange, min := min, max := max }) (a :: b :: l)
  | download {a b e l n c l'} : Kw "download" a → Kw "partition" b → IfExists e l → IfCloud c l' →
      Says d env (.partition { type := .download, min := n, ifExists := e, ifCloud := c }) (a :: b :: l ++ .int n :: l')
  | downloadRange {a b min max l c l'} : Kw "download" a → Kw "partitions" b → Between min max l → IfCloud c l' →
      Says d env (.partition { type := .downloadRange, min := min, max := max, ifCloud := c }) (a :: b :: l ++ l')
  | upload {a b e l n c l'} : Kw "upload" a → Kw "partition" b → IfExists e l → IfCloud c l' →
      Says d env (.partition { type := .upload, min := n, ifExists := e, ifCloud := c }) (a :: b :: l ++ .int n :: l')
  | uploadRange {a b min max l c l'} : Kw "upload" a → Kw "partitions" b → Between min max l → IfCloud c l' →
      Says d env (.partition { type := .uploadRange, min := min, max := max, ifCloud := c }) (a :: b :: l ++ l')

/-- Numbers below 2^63. -/
def Small (l : List Item) : Prop := ∀ n, Item.int n ∈ l → n < 9223372036854775808

/-- No empty parentheses. -/
def NoEmpty (l : List Item) : Prop := ∀ l1 l2, l ≠ l1 ++ .symbol 40 :: .symbol 41 :: l2

/-- Commands on which the code keeps to its comments: those on a storage or the
pipeline have no number of 2^63 or more, and those on the pipeline no `()`.  All
other commands are plain. -/
def Plain (l : List Item) : Prop := ∀ a b l', l = a :: b :: l' →
  (Kw "storage" b ∨ Kw "pipeline" b → Small l') ∧ (Kw "pipeline" b → NoEmpty l')

/-- C58 in full: a text is taken as a command exactly if it is one, and any other
text is refused. -/
def Full : Prop := ∀ env text, (∀ c ∈ text, c < 256) →
  (∀ cmd, parse env text = .ok cmd ↔ ∃ items, Text items text ∧ Says documented env cmd items) ∧
  (∀ w, parse env text ≠ .abort w) ∧ ∀ w, parse env text ≠ .ub w

end Verif.C58
