import Verif.Model.Text

/-!
# Base64

libstuff.cpp:2677-2712: `SEncodeBase64`, `SDecodeBase64`.  Both call mbedtls, whose source is not part of the
repository (the submodule is empty).  The model is that of RFC 4648 with padding, which mbedtls implements, and of its
treatment of empty input: `mbedtls_base64_encode` reports a size of 0 without room for a terminating NUL, so that
`out.resize(olen - 1)` asks for the largest `size_t` and throws `std::length_error`.

Simplified: mbedtls also skips line breaks and blanks between the characters it decodes; here they are an error.
-/

namespace Bedrock.Base64
open Bedrock Bedrock.Text

/-- The alphabet of RFC 4648, section 4. -/
def digit (i : Nat) : UInt8 :=
  if i < 26 then UInt8.ofNat (65 + i)
  else if i < 52 then UInt8.ofNat (97 + (i - 26))
  else if i < 62 then UInt8.ofNat (48 + (i - 52))
  else if i = 62 then 43 else 47

/-- The value of a character of the alphabet. -/
def digitVal (c : UInt8) : Option Nat :=
  if 65 ≤ c && c ≤ 90 then some (c.toNat - 65)
  else if 97 ≤ c && c ≤ 122 then some (c.toNat - 97 + 26)
  else if 48 ≤ c && c ≤ 57 then some (c.toNat - 48 + 52)
  else if c = 43 then some 62
  else if c = 47 then some 63
  else none

/-- The characters for a sequence of bytes. -/
def chars : Bytes → Bytes
  | [] => []
  | [a] => [digit (a.toNat / 4), digit (a.toNat % 4 * 16), 61, 61]
  | [a, b] => [digit (a.toNat / 4), digit (a.toNat % 4 * 16 + b.toNat / 16), digit (b.toNat % 16 * 4), 61]
  | a :: b :: c :: t =>
    digit (a.toNat / 4) :: digit (a.toNat % 4 * 16 + b.toNat / 16) ::
      digit (b.toNat % 16 * 4 + c.toNat / 64) :: digit (c.toNat % 64) :: chars t

/-- The bytes for a sequence of characters; `none`: not Base64. -/
def bytes : Bytes → Option Bytes
  | [] => some []
  | p :: q :: r :: s :: t => do
    let i ← digitVal p
    let j ← digitVal q
    if r = 61 && s = 61 then
      if t = [] then some [UInt8.ofNat (i * 4 + j / 16)] else none
    else
      let k ← digitVal r
      if s = 61 then
        if t = [] then some [UInt8.ofNat (i * 4 + j / 16), UInt8.ofNat (j % 16 * 16 + k / 4)] else none
      else
        let l ← digitVal s
        let rest ← bytes t
        some (UInt8.ofNat (i * 4 + j / 16) :: UInt8.ofNat (j % 16 * 16 + k / 4) :: UInt8.ofNat (k % 4 * 64 + l) :: rest)
  | _ => none

/-- `SEncodeBase64`, libstuff.cpp:2677-2693; `none`: `std::length_error`. -/
def encode (s : Bytes) : Option Bytes := if s = [] then none else some (chars s)

/-- `SDecodeBase64`, libstuff.cpp:2696-2712: text that is not Base64 gives an empty string. -/
def decode (s : Bytes) : Bytes := (bytes s).getD []

end Bedrock.Base64
