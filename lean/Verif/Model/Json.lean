import Verif.Model.Http

/-!
# JSON

libstuff.cpp:1493-1855 and libstuff.h:591-604: `SToJSON`, `SComposeJSONArray`, `SComposeJSONObject`, the recursive
descent parser and its two entry points.  A position is the list of bytes from there to `end`; reading `*end` gives the
terminating NUL.  `isspace` and `isdigit` are those of the C locale.

Simplified: nesting depth is unbounded in the model (the code recurses on the C stack); `populateOut = false` only
leaves outputs unset, so the model always computes them.  The callback of `SParseJSONObject` is not modelled.
-/

namespace Bedrock.Json
open Bedrock Bedrock.Text Bedrock.Http

/-- What a parsing function does. -/
inductive P (α : Type) where
  /-- returns a position -/
  | ok (rest : Bytes) (a : α)
  /-- returns `NULL` -/
  | fail
  /-- `SASSERT(*ptr)` ends the process -/
  | abort
  /-- the fuel of the model ran out; `Json.value_not_stuck` shows that it does not -/
  | stuck
  deriving DecidableEq, Repr

def P.bind {α β : Type} (p : P α) (f : Bytes → α → P β) : P β :=
  match p with
  | .ok r a => f r a
  | .fail => .fail
  | .abort => .abort
  | .stuck => .stuck

/-- The loop of `_JSONWS`, libstuff.cpp:1562-1568. -/
def ws (s : Bytes) : Bytes := s.dropWhile isSpace

def isDigit (c : UInt8) : Bool := 48 ≤ c && c ≤ 57

/-- The loop that looks for the closing quote, libstuff.cpp:1598-1610: the text before it and the rest. -/
def scan : Bytes → Option (Bytes × Bytes)
  | [] => none
  | 34 :: t => some ([], t)
  | 92 :: c :: t => (scan t).map fun p => (92 :: c :: p.1, p.2)
  | [92] => none
  | c :: t => if c = 0 then none else (scan t).map fun p => (c :: p.1, p.2)

/-- `_SParseJSONString`, libstuff.cpp:1589-1617. -/
def parseString (s : Bytes) : P Bytes :=
  if s.headD 0 = 0 then .abort
  else match ws s with
    | [] => .ok [] []
    | 34 :: t => match scan t with
      | some (b, r) => .ok r (unescape b 92)
      | none => .fail
    | _ => .fail

/-- An optional minus sign, libstuff.cpp:1740-1742. -/
def skipSign : Bytes → Bytes
  | 45 :: t => t
  | s => s

/-- An optional fraction, libstuff.cpp:1746-1751. -/
def skipFraction : Bytes → Bytes
  | 46 :: t => t.dropWhile isDigit
  | s => s

/-- An optional sign of an exponent, libstuff.cpp:1756-1758. -/
def skipExponentSign : Bytes → Bytes
  | [] => []
  | d :: u => if d = 45 ∨ d = 43 then u else d :: u

/-- An optional exponent, libstuff.cpp:1752-1762. -/
def skipExponent : Bytes → Bytes
  | [] => []
  | c :: t => if c = 101 ∨ c = 69 then (skipExponentSign t).dropWhile isDigit else c :: t

/-- The number syntax of libstuff.cpp:1738-1764, from the first character on: the position after it. -/
def skipNumber (s : Bytes) : Bytes := skipExponent (skipFraction ((skipSign s).dropWhile isDigit))

/-- `isdigit(*ptr) || (*ptr == '-' && ptr + 1 < end && isdigit(*(ptr + 1)))`, libstuff.cpp:1737. -/
def startsNumber : Bytes → Bool
  | 45 :: d :: _ => isDigit d
  | c :: _ => isDigit c
  | [] => false

/-- The text between two positions. -/
def between (s rest : Bytes) : Bytes := s.take (s.length - rest.length)

mutual
/-- `_SParseJSONValue`, libstuff.cpp:1695-1797.  `nv`: `nullValue`. -/
def value (nv : Bytes) : Nat → Bytes → P Bytes
  | 0, _ => .stuck
  | n + 1, s =>
    match ws s with
    | [] => .ok [] []
    | s =>
      match s with
      | 34 :: _ => parseString s
      | 123 :: t => (object nv n t).bind fun r _ => .ok r (between s r)
      | 91 :: t => (array nv n t).bind fun r _ => .ok r (between s r)
      | _ =>
        if startsNumber s then .ok (skipNumber s) (between s (skipNumber s))
        else if s.take 4 = str "true" then .ok (s.drop 4) (str "true")
        else if s.take 5 = str "false" then .ok (s.drop 5) (str "false")
        else if s.take 4 = str "null" then .ok (s.drop 4) nv
        -- else unsupported, ignore
        else .ok s []

/-- `_SParseJSONArray` after its `[`, libstuff.cpp:1627-1631. -/
def array (nv : Bytes) : Nat → Bytes → P (List Bytes)
  | 0, _ => .stuck
  | n + 1, s =>
    match ws s with
    | [] => .ok [] []
    | 93 :: t => .ok t []
    | s => elements nv n s

/-- The loop of `_SParseJSONArray`, libstuff.cpp:1632-1648. -/
def elements (nv : Bytes) : Nat → Bytes → P (List Bytes)
  | 0, _ => .stuck
  | n + 1, s =>
    match ws s with
    | [] => .ok [] []
    | s => (value nv n s).bind fun r v =>
      match ws r with
      | [] => .ok [] [v]
      | 93 :: t => .ok t [v]
      | 44 :: t => (elements nv n t).bind fun r vs => .ok r (v :: vs)
      | _ => .fail

/-- `_SParseJSONObject` after its `{`, libstuff.cpp:1660-1664. -/
def object (nv : Bytes) : Nat → Bytes → P (List (Bytes × Bytes))
  | 0, _ => .stuck
  | n + 1, s =>
    match ws s with
    | [] => .ok [] []
    | 125 :: t => .ok t []
    | s => members nv n s

/-- The loop of `_SParseJSONObject`, libstuff.cpp:1665-1692. -/
def members (nv : Bytes) : Nat → Bytes → P (List (Bytes × Bytes))
  | 0, _ => .stuck
  | n + 1, s =>
    match ws s with
    | [] => .ok [] []
    | s => (parseString s).bind fun r name =>
      match ws r with
      | [] => .ok [] []
      | 58 :: r =>
        match ws r with
        | [] => .ok [] []
        | r => (value nv n r).bind fun r v =>
          match ws r with
          | [] => .ok [] [(name, v)]
          | 125 :: t => .ok t [(name, v)]
          | 44 :: t => (members nv n t).bind fun r ms => .ok r ((name, v) :: ms)
          | _ => .fail
      | _ => .fail
end

/-- Fuel that is always enough: at least one call in three consumes a byte. -/
def fuel (s : Bytes) : Nat := 3 * s.length + 3

/-- Outcome of an entry point. -/
inductive Parsed (α : Type) where
  | ok (a : α)
  | abort
  deriving DecidableEq, Repr

/-- `SParseJSONArray`, libstuff.cpp:1830-1852. -/
def parseArray (nv s : Bytes) : Parsed (List Bytes) :=
  if s.length < 2 then .ok []
  else if s.headD 0 = 0 then .abort
  else
    match (match ws s with
      | [] => P.ok [] []
      | 91 :: t => array nv (fuel t) t
      | _ => .fail) with
    | .ok r out => .ok (if ws r = [] then out else [])
    | .fail => .ok []
    | .abort => .abort
    | .stuck => .abort

/-- `SParseJSONObject`, libstuff.cpp:1799-1828. -/
def parseObject (nv s : Bytes) : Parsed Table :=
  if s.length < 2 then .ok []
  else if s.headD 0 = 0 then .abort
  else
    match (match ws s with
      | [] => P.ok [] []
      | 123 :: t => object nv (fuel t) t
      | _ => .fail) with
    | .ok r out => .ok (if ws r = [] then out.foldl (fun t e => t.set e.1 e.2) [] else [])
    | .fail => .ok []
    | .abort => .abort
    | .stuck => .abort

/-! ## Composing -/

/-- The characters that `SToJSON` escapes, libstuff.cpp:1541-1543. -/
def specials : Bytes := (List.range 31).map (fun i => UInt8.ofNat (i + 1)) ++ [127, 34, 92, 47]

/-- A string literal, libstuff.cpp:1541-1544. -/
def quoted (v : Bytes) : Bytes := [34] ++ escape v specials 92 ++ [34]

/-- `SToJSON`, libstuff.cpp:1500-1545.  `isFloat`: the text denotes a finite `float` and equals what `SToStr` prints
for it.
`none`: `SASSERT(*ptr)` in the parser. -/
def toJSON (isFloat : Bytes → Bool) (force : Bool) (v : Bytes) : Option Bytes :=
  if intDec (strtoll (cstr v)) = v then some v
  else if isFloat v then some v
  else if sIEquals v (str "true") then some (str "true")
  else if sIEquals v (str "false") then some (str "false")
  else if sIEquals v (str "null") then some (str "null")
  else if !force && decide (2 ≤ v.length) &&
      ((v.head? == some 91 && v.getLast? == some 93) || (v.head? == some 123 && v.getLast? == some 125)) then
    match value (str "null") (fuel v) v with
    | .ok [] _ => some v
    | .abort => none
    | _ => some (quoted v)
  else some (quoted v)

/-- The entries joined by commas. -/
def joined : List Bytes → Bytes
  | [] => []
  | [x] => x
  | x :: xs => x ++ 44 :: joined xs

/-- `SComposeJSONArray`, libstuff.h:591-604. -/
def composeArray (isFloat : Bytes → Bool) (l : List Bytes) : Option Bytes :=
  (l.mapM (toJSON isFloat false)).map fun xs => [91] ++ joined xs ++ [93]

/-- `SComposeJSONObject`, libstuff.cpp:1547-1559: names are written as they are. -/
def composeObject (isFloat : Bytes → Bool) (force : Bool) (t : Table) : Option Bytes :=
  (t.mapM fun e => (toJSON isFloat force e.2).map fun x => [34] ++ e.1 ++ [34, 58] ++ x).map
    fun xs => [123] ++ joined xs ++ [125]

end Bedrock.Json
