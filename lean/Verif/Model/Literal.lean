import Verif.Model.Text

/-! # Literals as lists of bytes -/

namespace Bedrock
open Lean in
/-- The bytes of a literal, written out as a list: equal to `str` of it, but quick to compute with in the kernel. -/
macro "b!" s:str : term => do
  let elems ← s.getString.toUTF8.toList.mapM fun b => `(($(quote b.toNat) : UInt8))
  `([$(elems.toArray),*])

end Bedrock
