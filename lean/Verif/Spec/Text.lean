import Verif.Model.Basic

/-!
# What the text codecs are compared with

Definitions here are written from the documented formats (SQL string literals, backslash escapes,
RFC 3986 characters, UTF-8, hexadecimal), not from the code, and use nothing of the model.
-/

namespace Bedrock.Text.Spec

/-- The value of a hexadecimal digit of either case. -/
def hexDigitValue (c : UInt8) : Option Nat :=
  let s : List UInt8 := [48, 49, 50, 51, 52, 53, 54, 55, 56, 57, 65, 66, 67, 68, 69, 70]
  let l : List UInt8 := [48, 49, 50, 51, 52, 53, 54, 55, 56, 57, 97, 98, 99, 100, 101, 102]
  match s.idxOf? c with
  | some i => some i
  | none => l.idxOf? c

/-- An upper-case hexadecimal digit. -/
def IsUpperHex (c : UInt8) : Prop := (48 ≤ c ∧ c ≤ 57) ∨ (65 ≤ c ∧ c ≤ 70)

/-- The inside of an SQL string literal, after the opening quote: two quotes stand for one, a
single quote ends the literal.  The value and the text after the literal; `none` if unterminated. -/
def sqlBody : Bytes → Option (Bytes × Bytes)
  | [] => none
  | [39] => some ([], [])
  | 39 :: 39 :: rest => (sqlBody rest).map fun r => (39 :: r.1, r.2)
  | 39 :: rest => some ([], rest)
  | c :: rest => (sqlBody rest).map fun r => (c :: r.1, r.2)

/-- An SQL string literal at the start of a text: its value and what follows it. -/
def sqlLiteral : Bytes → Option (Bytes × Bytes)
  | 39 :: rest => sqlBody rest
  | _ => none

/-- `n` string literals separated by a comma and a space, and nothing else. -/
def sqlLiterals : Nat → Bytes → Option (List Bytes)
  | 0, s => if s = [] then some [] else none
  | 1, s => match sqlLiteral s with
    | some (v, []) => some [v]
    | _ => none
  | n + 2, s => match sqlLiteral s with
    | some (v, 44 :: 32 :: rest) => (sqlLiterals (n + 1) rest).map (v :: ·)
    | _ => none

/-- The characters of an escaped text that are not part of an escape sequence.  A sequence is the
escape character and the character after it, and for `u` the four characters after that. -/
def bare (esc : UInt8) : Bytes → Bytes
  | [] => []
  | [c] => [c]
  | c :: d :: rest =>
    if c = esc then
      if d = 117 then bare esc (rest.drop 4) else bare esc rest
    else c :: bare esc (d :: rest)
  termination_by s => s.length

/-- The unreserved characters encoders keep, plus the marks of RFC 2396 except the apostrophe. -/
def uriKept : List UInt8 :=
  "ABCDEFGHIJKLMNOPQRSTUVWXYZabcdefghijklmnopqrstuvwxyz0123456789-_.!~*()".toList.map
    (fun c => UInt8.ofNat c.toNat)

/-- One unit of an encoded URL component. -/
def UriUnit (t : Bytes) : Prop :=
  (∃ c ∈ uriKept, t = [c]) ∨ t = [43] ∨
    ∃ h l, IsUpperHex h ∧ IsUpperHex l ∧ t = [37, h, l]

/-- UTF-8 of a code point, by Lean's own encoder. -/
def utf8 (n : Nat) : Bytes := String.utf8EncodeChar (Char.ofNat n)

end Bedrock.Text.Spec
