import Verif.Model.Http
import Verif.Model.Https

/-! # The parts of a method line: libstuff.cpp:895-940, 1157-1186

`SParseRequestMethodLine` and `SParseResponseMethodLine`, which plugins use on lines they were sent, with the two functions they
share with the parser of messages.  The text is a C string: its bytes and a zero behind them.  Reading the byte before the first
or one behind the zero is undefined and is `none` here. -/

namespace Bedrock.MethodLine
open Bedrock Text Http

/-- `while (*start == ' ') ++start;`, libstuff.cpp:898-900, 931-933, from a position. -/
def skipBlanks (s : Bytes) (start : Nat) : Option Nat :=
  if s.length < start then none else some (start + ((s.drop start).takeWhile (· == 32)).length)

/-- `while (*(end - 1) == ' ') --end;`, libstuff.cpp:910-912, 934-936: it does not stop at the place the search began at, and if
there are only blanks before it, it reads the byte before the text. -/
def backBlanks (s : Bytes) (e : Nat) : Option Nat :=
  if (s.take e).all (· == 32) then none else some (trimEndSp (s.take e)).length

/-- The bytes from one position to another, if there are any; what was in `out` otherwise. -/
def slice (s : Bytes) (b e : Nat) (out : Bytes) : Bytes := if b < e then (s.take e).drop b else out

/-- `_SParseHTTP_GetUpToNext`, libstuff.cpp:895-924: where the separator is, and `out`. -/
def upToNext (s : Bytes) (start : Nat) (sep : UInt8) (out : Bytes) : Option (Nat × Bytes) := do
  let b ← skipBlanks s start
  let sepPos := b + ((s.drop b).takeWhile (· != sep)).length
  let e ← backBlanks s sepPos
  some (sepPos, slice s b e out)

/-- `_SParseHTTP_GetUpToEnd`, libstuff.cpp:927-943. -/
def upToEnd (s : Bytes) (start : Nat) (out : Bytes) : Option Bytes := do
  let b ← skipBlanks s start
  let e ← backBlanks s s.length
  some (slice s b e out)

/-- `SParseRequestMethodLine`, libstuff.cpp:1157-1169: what is returned, `method` and `uri`. -/
def requestLine (s : Bytes) : Option (Bool × Bytes × Bytes) := do
  let (i, method) ← upToNext s 0 32 []
  let (_, uri) ← upToNext s (i + 1) 32 []
  some (!method.isEmpty && !uri.isEmpty, method, uri)

/-- `SParseResponseMethodLine`, libstuff.cpp:1172-1186: what is returned, `protocol`, `code` and `reason`.  `protocol` is the one
thing that is not cleared first. -/
def responseLine (s protocol : Bytes) : Option (Bool × Bytes × Int × Bytes) := do
  let (i, protocol) ← upToNext s 0 32 protocol
  let (j, codeStr) ← upToNext s (i + 1) 32 []
  let reason ← upToEnd s (j + 1) []
  let code := Https.toInt codeStr
  some (code != 0 && !reason.isEmpty, protocol, code, reason)

end Bedrock.MethodLine
