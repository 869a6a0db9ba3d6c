import Verif.Spec.Http
import Verif.Spec.Text

/-!
# Cookies and chunked bodies on the wire

Written from RFC 9112 section 7.1 (chunked bodies) and without the parser or the composer.
-/

namespace Bedrock.Http.Spec
open Bedrock.Text

/-- A cookie that can be stored with others in one header: text on one line without blanks at its
ends and without the byte 255, which separates cookies in the table. -/
structure GoodCookie (c : Bytes) : Prop where
  nonempty : c ≠ []
  plain : ∀ x ∈ c, x ≠ 13 ∧ x ≠ 10 ∧ x ≠ 0 ∧ x ≠ 255
  start : c.head? ≠ some 32
  stop : c.getLast? ≠ some 32

/-- The value of a hexadecimal number whose first digits have the value `acc`. -/
def hexRead (acc : Nat) : Bytes → Option Nat
  | [] => some acc
  | c :: r =>
    match Text.Spec.hexDigitValue c with
    | some d => hexRead (acc * 16 + d) r
    | none => none

/-- A chunk as sent: its size in hexadecimal, an extension, the data. -/
structure Chunk where
  size : Bytes
  ext : Bytes := []
  data : Bytes
  deriving DecidableEq, Repr

/-- The line before a chunk announces `n` bytes. -/
structure Announces (size ext : Bytes) (n : Nat) : Prop where
  value : hexRead 0 size = some n
  nonempty : size ≠ []
  digits : size.length ≤ 8
  extForm : ext = [] ∨ ∃ x, ext = 59 :: x
  extEol : ∀ c ∈ ext, c ≠ 13 ∧ c ≠ 10

structure GoodChunk (c : Chunk) : Prop where
  line : Announces c.size c.ext c.data.length
  data : c.data ≠ []
  small : c.data.length < 2 ^ 31

/-- The bytes of a chunk. -/
def Chunk.text (c : Chunk) : Bytes := c.size ++ c.ext ++ [13, 10] ++ c.data ++ [13, 10]

/-- The value a receiver must see for a name: that of the last line with that name. -/
def lastValue (name : Bytes) (es : List (Bytes × Bytes)) : Option Bytes :=
  (es.reverse.find? (fun e => e.1.map toLower == name.map toLower)).map (fun e => carried e.2)

/-- A header line as another program sends it. -/
def headerText (e : Bytes × Bytes) : Bytes := e.1 ++ [58, 32] ++ e.2 ++ [13, 10]

end Bedrock.Http.Spec
