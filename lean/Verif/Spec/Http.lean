import Verif.Model.Http

/-!
# What a message must look like to be transported

The conditions on names and method lines are those of the HTTP-like format (a header is
`name: value` on one line), written without the parser or the composer.
-/

namespace Bedrock.Http.Spec
open Bedrock.Text

/-- A header name: printable as `name: value` and read back as that name. -/
structure GoodName (n : Bytes) : Prop where
  nonempty : n ≠ []
  noEol : ∀ c ∈ n, c ≠ 13 ∧ c ≠ 10
  noColon : 58 ∉ n
  noNul : 0 ∉ n
  start : ∀ c, n.head? = some c → c ∉ ([9, 11, 12, 32] : Bytes)
  stop : n.getLast? ≠ some 32

/-- A method line: not empty, no control characters but tab, no blank at either end. -/
structure GoodMethod (m : Bytes) : Prop where
  nonempty : m ≠ []
  noControl : ∀ c ∈ m, c = 9 ∨ (32 ≤ c ∧ c ≠ 127)
  start : m.head? ≠ some 32
  stop : m.getLast? ≠ some 32

/-- The part of a value that can be transported: up to the first NUL, without blanks at the ends. -/
def carried (v : Bytes) : Bytes :=
  (((v.takeWhile (· ≠ 0)).dropWhile (· == 32)).reverse.dropWhile (· == 32)).reverse

/-- A value that survives as it is: any bytes but NUL, not beginning or ending with a blank. -/
structure GoodValue (v : Bytes) : Prop where
  noNul : 0 ∉ v
  start : v.head? ≠ some 32
  stop : v.getLast? ≠ some 32

/-- Two spellings of the same name. -/
def sameName (a b : Bytes) : Prop := a.map toLower = b.map toLower

/-- Headers with a meaning of their own in the format: cookies, and compressed or chunked bodies. -/
structure Ordinary (e : Bytes × Bytes) : Prop where
  name : GoodName e.1
  notCookie : ¬ sameName e.1 (str "Set-Cookie")
  notGzip : ¬ (sameName e.1 (str "Content-Encoding") ∧ sameName (e.2.takeWhile (· ≠ 0)) (str "gzip"))
  notChunked : ¬ (sameName e.1 (str "Transfer-Encoding") ∧ sameName (carried e.2) (str "chunked"))

/-- A message to be sent: every name occurs once. -/
structure GoodMsg (m : Msg) : Prop where
  method : GoodMethod m.methodLine
  ordinary : ∀ e ∈ m.table, Ordinary e
  sorted : m.table.Pairwise (fun a b => keyLt a.1 b.1 = true)
  small : m.content.length < 2 ^ 31

end Bedrock.Http.Spec
