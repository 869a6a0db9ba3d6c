import Verif.Model.Text
import Verif.Model.Search
import Verif.Model.Literal

/-!
# What of a query is written to the log

`SRedactSensitiveValues` (libstuff.cpp:3324-3339), `SREReplace` (3282-3322) for its four patterns, and where `SQuery` uses
them (3063-3066, 3073-3076, 3109-3112; 102).  A pattern is given by the length of its match at the start of a text; a dot
is any byte but a newline, `PCRE2_NEWLINE` being LF.  None of the patterns nests repetitions, so the limit on depth is not
reached.  `SDEBUG` (2845), `SWARN` of a statement that cannot be expanded (3025) and the query log (3098-3106) write
without redaction: see DESIGN.md.
-/

namespace Bedrock.Redact
open Bedrock Bedrock.Text

/-- `pcre2_substitute` with `PCRE2_SUBSTITUTE_GLOBAL`: from the left, a match (of at least one byte) is replaced and the
search goes on after it.  `skip`: bytes of the last match that are still ahead. -/
def subst (len : Bytes → Option Nat) (rep : Bytes) : Nat → Bytes → Bytes
  | _, [] => []
  | skip + 1, _ :: s => subst len rep skip s
  | 0, c :: s =>
    match len (c :: s) with
    | some n => rep ++ subst len rep (n - 1) s
    | none => c :: subst len rep 0 s

/-- `SREReplace`, libstuff.cpp:3282-3322.  The result is taken from a `char*` (3311-3315): it ends before a NUL. -/
def sreReplace (len : Bytes → Option Nat) (rep s : Bytes) : Bytes := cstr (subst len rep 0 s)

/-- The rest of the line. -/
def line (s : Bytes) : Bytes := s.takeWhile (· != 10)

def tokenOpen : Bytes := b!"\"authToken\":\""
def tokenRep : Bytes := b!"\"authToken\":<REDACTED>"

/-- `"authToken":".*"?`, libstuff.cpp:3329: `.*` takes the rest of the line, a quote included. -/
def tokenLen (s : Bytes) : Option Nat :=
  if tokenOpen.isPrefixOf s then some (13 + (line (s.drop 13)).length) else none

def isDigit (c : UInt8) : Bool := 48 ≤ c && c ≤ 57
def isHex (c : UInt8) : Bool := (48 ≤ c && c ≤ 57) || (65 ≤ c && c ≤ 70)
def cipherRep : Bytes := b!"<REDACTED>"

/-- `v[0-9]+:[0-9A-F]{10,}`, libstuff.cpp:3332. -/
def cipherLen : Bytes → Option Nat
  | 118 :: s =>
    match s.dropWhile isDigit with
    | 58 :: r =>
      if s.takeWhile isDigit ≠ [] ∧ 10 ≤ (r.takeWhile isHex).length then
        some (2 + (s.takeWhile isDigit).length + (r.takeWhile isHex).length)
      else none
    | _ => none
  | _ => none

def htmlOpen : Bytes := b!"\"html\":\""
def htmlRep : Bytes := b!"\"html\":\"<REDACTED>\""

/-- Up to and including the last of some byte. -/
def uptoLast (d : UInt8) (s : Bytes) : Bytes := (s.reverse.dropWhile (· != d)).reverse

/-- `"html":".*"`, libstuff.cpp:3335: to the last quote of the line. -/
def htmlLen (s : Bytes) : Option Nat :=
  if htmlOpen.isPrefixOf s then
    let m := uptoLast 34 (line (s.drop 8))
    if m = [] then none else some (8 + m.length)
  else none

def editsOpen : Bytes := b!"\"edits\":["
def editsRep : Bytes := b!"\"edits\":[\"REDACTED\"]"

/-- `"edits":\[.*?\]`, libstuff.cpp:3338: to the first bracket of the line. -/
def editsLen (s : Bytes) : Option Nat :=
  if editsOpen.isPrefixOf s then
    let l := line (s.drop 9)
    if 93 ∈ l then some (9 + (l.takeWhile (· != 93)).length + 1) else none
  else none

/-- `SRedactSensitiveValues`, libstuff.cpp:3324-3339. -/
def redact (s : Bytes) : Bytes :=
  sreReplace editsLen editsRep (sreReplace htmlLen htmlRep (sreReplace cipherLen cipherRep (sreReplace tokenLen tokenRep s)))

/-- `MAX_LOG_QUERY_SIZE`, libstuff.cpp:102. -/
def maxLogQuerySize : Nat := 200000

/-- `sqlToLog`, libstuff.cpp:3064-3065, 3075-3076, 3111-3112. -/
def sqlToLog (sql : Bytes) : Bytes := redact (sql.take maxLogQuerySize)

end Bedrock.Redact
