import Verif.Model.Rows

/-! # Comparing the values of a result: libstuff/SQValue.cpp:52-156

Simplified: the arithmetic of `double` is exact here, so numbers that differ by almost exactly the tolerance may compare otherwise;
results do not hold NaN, which SQLite stores as NULL. -/

namespace Bedrock.ValueEq
open Bedrock Text Rows

/-- A `double`: a multiple of the smallest positive one, 2 ^ -1074, or an infinity. -/
inductive Dbl where
  | fin (k : Int)
  | inf (negative : Bool)
  deriving DecidableEq, Repr

/-- The number 1 as a multiple of the smallest positive one. -/
def one : Int := 2 ^ 1074

/-- `fabs(a - b) <= 1e-12 + 1e-9 * max(fabs(a), fabs(b))`, libstuff/SQValue.cpp:113-129, times 1e12.  The difference of equal infinities is
not a number and compares as false; an infinite difference is not more than an infinite tolerance. -/
def close : Dbl → Dbl → Bool
  | .fin a, .fin b => decide ((a - b).natAbs * 10 ^ 12 ≤ one.natAbs + 1000 * max a.natAbs b.natAbs)
  | .fin _, .inf _ => true
  | .inf _, .fin _ => true
  | .inf s, .inf t => s != t

/-- `operator==` of two values, libstuff/SQValue.cpp:98-135. -/
def eqValue : Value Dbl → Value Dbl → Bool
  | .none, .none => true
  | .int a, .int b => a == b
  | .real a, .real b => close a b
  | .text a, .text b => a == b
  | .blob a, .blob b => a == b
  | _, _ => false

/-- `operator!=`, libstuff/SQValue.cpp:137-140. -/
def neValue (a b : Value Dbl) : Bool := !eqValue a b

/-- `operator==` with a string, libstuff/SQValue.cpp:78-86. -/
def eqString (fmt : Dbl → Bytes) (v : Value Dbl) (s : Bytes) : Bool := v.str fmt == s

/-- `operator==` with a C string, which may be null, libstuff/SQValue.cpp:88-96. -/
def eqChars (fmt : Dbl → Bytes) (v : Value Dbl) (s : Option Bytes) : Bool := v.str fmt == cstr (s.getD [])

/-- `operator+`, libstuff/SQValue.cpp:52-76. -/
def concat (fmt : Dbl → Bytes) (a b : Value Dbl) : Bytes := a.str fmt ++ b.str fmt

/-- `empty`, libstuff/SQValue.cpp:142-151. -/
def empty : Value Dbl → Bool
  | .none => true
  | .text s => s.isEmpty
  | .blob s => s.isEmpty
  | _ => false

/-- `size`, libstuff/SQValue.cpp:153-156. -/
def size (fmt : Dbl → Bytes) (v : Value Dbl) : Nat := (v.str fmt).length

end Bedrock.ValueEq
