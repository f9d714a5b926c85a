import Verif.Model.Basic

/-! Model of main/command/lex.c: the tokenizer of commands.  Characters are
byte values 0..255; `char` is signed, so a `<ctype.h>` call on a byte of 128 or
more is undefined. -/
namespace Verif

/-- The units, KUSEC .. KTIB of main/command/lex.h:30-46. -/
inductive LUnit where
  | usec | msec | sec | min | hour | day | week | month | year
  | kb | kib | mb | mib | gb | gib | tb | tib
deriving Repr, DecidableEq

/-- Token ids, main/command/lex.h:19-83.  `kw name` is a keyword other than a
unit; its id is named after the keyword of the table. -/
inductive Kw where
  | unit (u : LUnit)
  | kw (name : String)
deriving Repr, DecidableEq

/-- `struct Token`, lex.h:85-96.  KREAL is not modelled (see `Lex.nextF`). -/
inductive Token where
  | eof
  | int (n : Nat)
  | string (s : List Nat) (escape : Bool)
  | name (s : List Nat)
  | keyword (k : Kw) (s : List Nat)
  | symbol (c : Nat)
deriving Repr, DecidableEq

/-- `struct Lex`, lex.h:98-105: `text` is what lies between `pos` and `end`;
`backlog` is the stack of pushed tokens, last pushed first (room for 4). -/
structure Lex where
  text : List Nat
  keywords : Bool
  backlog : List Token
deriving Repr, DecidableEq

namespace Lex

def bytes (s : String) : List Nat := s.toList.map (·.toNat)

/-- isspace, isdigit, isalpha, ispunct in the C locale. -/
def isSpace (c : Nat) : Bool := c == 32 || (9 ≤ c && c ≤ 13)
def isDigit (c : Nat) : Bool := 48 ≤ c && c ≤ 57
def isAlpha (c : Nat) : Bool := (65 ≤ c && c ≤ 90) || (97 ≤ c && c ≤ 122)
def isPunct (c : Nat) : Bool :=
  (33 ≤ c && c ≤ 47) || (58 ≤ c && c ≤ 64) || (91 ≤ c && c ≤ 96) || (123 ≤ c && c ≤ 126)

/-- `keywords`, main/command/lex.c:32-111: id, name and name_size. -/
def keywordTable : List (Kw × String × Nat) :=
  [(.kw "true", "true", 4), (.kw "false", "false", 5),
   (.unit .usec, "us", 2), (.unit .usec, "microsecond", 11), (.unit .usec, "microseconds", 12),
   (.unit .msec, "ms", 2), (.unit .msec, "millisecond", 11), (.unit .msec, "milliseconds", 12),
   (.unit .sec, "sec", 3), (.unit .sec, "second", 6), (.unit .sec, "seconds", 7),
   (.unit .min, "min", 2), (.unit .min, "minute", 6), (.unit .min, "minutes", 7),
   (.unit .hour, "hr", 2), (.unit .hour, "hour", 4), (.unit .hour, "hours", 5),
   (.unit .day, "day", 3), (.unit .day, "days", 4),
   (.unit .week, "week", 4), (.unit .week, "weeks", 5),
   (.unit .month, "month", 5), (.unit .month, "months", 6),
   (.unit .year, "year", 4), (.unit .year, "years", 5),
   (.unit .kb, "kb", 2), (.unit .kib, "kib", 3), (.unit .kib, "k", 1),
   (.unit .mb, "mb", 2), (.unit .mib, "mib", 3), (.unit .mib, "m", 1),
   (.unit .gb, "gb", 2), (.unit .gib, "gib", 3), (.unit .gib, "g", 1),
   (.unit .tb, "tb", 2), (.unit .tib, "tib", 3), (.unit .tib, "t", 1),
   (.kw "set", "set", 3), (.kw "reset", "reset", 5), (.kw "to", "to", 2), (.kw "show", "show", 4),
   (.kw "all", "all", 3), (.kw "config", "config", 6), (.kw "checkpoint", "checkpoint", 10),
   (.kw "service", "service", 7), (.kw "create", "create", 6), (.kw "storage", "storage", 7),
   (.kw "storages", "storages", 8), (.kw "partition", "partition", 9),
   (.kw "partitions", "partitions", 10), (.kw "if", "if", 2), (.kw "not", "not", 3),
   (.kw "exists", "exists", 6), (.kw "drop", "drop", 4), (.kw "pipeline", "pipeline", 8),
   (.kw "alter", "alter", 5), (.kw "rename", "rename", 6), (.kw "move", "move", 4),
   (.kw "between", "between", 7), (.kw "and", "and", 3), (.kw "into", "into", 4),
   (.kw "refresh", "refresh", 7), (.kw "rebalance", "rebalance", 9), (.kw "on", "on", 2),
   (.kw "cloud", "cloud", 5), (.kw "clouds", "clouds", 6), (.kw "download", "download", 8),
   (.kw "upload", "upload", 6), (.kw "verbose", "verbose", 7), (.kw "debug", "debug", 5),
   (.kw "wal", "wal", 3), (.kw "memory", "memory", 6)]

/-- tolower as used by strncasecmp. -/
def lower (c : Nat) : Nat := if 65 ≤ c ∧ c ≤ 90 then c + 32 else c

/-- One row of the search of lex.c:297-306: `name_size` equals the token length
and strncasecmp over `name_size` characters is 0 (str_compare_case,
runtime/runtime/str.h:102-106). -/
def rowMatches (s : List Nat) (row : Kw × String × Nat) : Bool :=
  row.2.2 == s.length && (s.take row.2.2).map lower == ((bytes row.2.1).take row.2.2).map lower

/-- The keyword search, lex.c:296-307. -/
def findKeyword (s : List Nat) : Option Kw := (keywordTable.find? (rowMatches s)).map (·.1)

/-- The factors of lex_integer_mod, lex.c:141-194. -/
def factor : LUnit → Nat
  | .usec => 1
  | .msec => 1000
  | .sec => 1000 * 1000
  | .min => 60 * 1000 * 1000
  | .hour => 60 * 60 * 1000 * 1000
  | .day => 24 * 60 * 60 * 1000 * 1000
  | .week => 7 * 24 * 60 * 60 * 1000 * 1000
  | .month => 30 * 7 * 24 * 60 * 60 * 1000 * 1000
  | .year => 12 * 30 * 7 * 24 * 60 * 60 * 1000 * 1000
  | .kb => 1000
  | .kib => 1024
  | .mb => 1000 * 1000
  | .mib => 1024 * 1024
  | .gb => 1000 * 1000 * 1000
  | .gib => 1024 * 1024 * 1024
  | .tb => 1000 * 1000 * 1000 * 1000
  | .tib => 1024 * 1024 * 1024 * 1024

/-- White space and comments, lex.c:212-226.  The flag says whether the position
is inside a `#` comment (ended by a newline, which is white space itself). -/
def skip : Bool → List Nat → Res (List Nat)
  | _, [] => .ok []
  | true, c :: cs => skip (c != 10) cs
  | false, c :: cs =>
    if c ≥ 128 then .ub "isspace of a negative char"
    else if isSpace c then skip false cs
    else if c = 35 then skip true cs
    else .ok (c :: cs)

/-- The digits of an integer, lex.c:243-258: value (64-bit, wrapping) and rest;
`none` for `goto reread_as_float`. -/
def number : List Nat → Nat → Res (Option (Nat × List Nat))
  | [], n => .ok (some (n, []))
  | c :: cs, n =>
    if c = 46 ∨ c = 101 ∨ c = 69 then .ok none
    else if c ≥ 128 then .ub "isdigit of a negative char"
    else if isDigit c then number cs (wrapU64 (n * 10 + c - 48))
    else .ok (some (n, c :: cs))

/-- The characters of a name, lex.c:279-288. -/
def nameChars : List Nat → Res (List Nat × List Nat)
  | [] => .ok ([], [])
  | c :: cs =>
    if c = 95 ∨ c = 46 ∨ c = 36 then (nameChars cs).bind fun (a, b) => .ok (c :: a, b)
    else if c ≥ 128 then .ub "isalpha of a negative char"
    else if isAlpha c || isDigit c then (nameChars cs).bind fun (a, b) => .ok (c :: a, b)
    else .ok ([], c :: cs)

/-- A string up to the closing character, lex.c:313-347: contents, escape flag
and rest after the closing character. -/
def stringChars (endc : Nat) : List Nat → Bool → Bool → List Nat → Res (List Nat × Bool × List Nat)
  | [], _, _, _ => .err "unterminated string"
  | c :: cs, slash, esc, acc =>
    if c = endc then
      if slash then stringChars endc cs false esc (acc ++ [c]) else .ok (acc, esc, cs)
    else if c = 10 then .err "unterminated string"
    else if c = 92 then stringChars endc cs (!slash) true (acc ++ [c])
    else stringChars endc cs false esc (acc ++ [c])

/-- lex_push, lex.c:355-360: `assert(self->backlog_size < 4)`; without asserts
the store is out of bounds. -/
def push (l : Lex) (t : Token) : Res Lex :=
  if l.backlog.length < 4 then .ok { l with backlog := t :: l.backlog }
  else .abort "lex_push: backlog_size < 4"

/-- lex_next with lex_integer_mod inlined, lex.c:135-198 and 200-353.  `fuel`
bounds the recursion lex_next - lex_integer_mod - lex_next.  A number with '.',
'e' or 'E' is read by strtod, which is not modelled: the result is an error
outcome of its own. -/
def nextF : Nat → Lex → Res (Token × Lex)
  | 0, _ => .err "fuel"
  | fuel + 1, l =>
    match l.backlog with
    | t :: ts => .ok (t, { l with backlog := ts })
    | [] =>
      (skip false l.text).bind fun
        | [] => .ok (.eof, { l with text := [] })
        | c :: cs =>
          if c ≠ 34 ∧ c ≠ 39 ∧ c ≠ 95 ∧ isPunct c = true then
            .ok (.symbol c, { l with text := cs })
          else if isDigit c then
            (number (c :: cs) 0).bind fun
              | none => .err "not modelled: strtod"
              | some (n, rest) =>
                -- lex_integer_mod
                (nextF fuel { l with text := rest }).bind fun (t, l) =>
                match t with
                | .keyword (.unit u) _ => .ok (.int (wrapU64 (n * factor u)), l)
                | t => (push l t).bind fun l => .ok (.int n, l)
          else if isAlpha c || c == 95 then
            (nameChars (c :: cs)).bind fun (s, rest) =>
            if !l.keywords then .ok (.name s, { l with text := rest })
            else match findKeyword s with
              | some k => .ok (.keyword k s, { l with text := rest })
              | none => .ok (.name s, { l with text := rest })
          else if c = 34 ∨ c = 39 then
            (stringChars c cs false false []).bind fun (s, esc, rest) =>
            .ok (.string s esc, { l with text := rest })
          else .err "bad token"

/-- lex_next: every recursive call has consumed a digit. -/
def next (l : Lex) : Res (Token × Lex) := nextF (l.text.length + 1) l

/-- lex_if, lex.c:362-372: `p` says whether the token has the wanted id.  The
result is the token if it matched. -/
def lexIf (p : Token → Bool) (l : Lex) : Res (Option Token × Lex) :=
  (next l).bind fun (t, l) =>
  if p t then .ok (some t, l) else (push l t).bind fun l => .ok (none, l)

/-- lex_if_name, lex.c:374-381. -/
def lexIfName (l : Lex) : Res (Option Token × Lex) :=
  (lexIf (fun t => match t with | .name _ => true | _ => false) { l with keywords := false }).bind
    fun (t, l) => .ok (t, { l with keywords := true })

/-- lex_init and lex_start, lex.c:113-127. -/
def start (text : List Nat) : Lex := ⟨text, true, []⟩

end Lex
end Verif
