import Verif.Model.Text

/-!
# Model of `DEBURR`: removing accents from text

`/repo/libstuff/SDeburr.h` and `SDeburr.cpp`.  The argument is what `c_str()` shows: the bytes before
the first NUL.  The warning written on malformed text is not modelled.
-/

namespace Bedrock.Deburr
open Bedrock.Text

/-- The calls of `mapCodePoints`, in order, SDeburr.h:67-130. -/
def mappings : List (String × List Nat) :=
  [ ("A", [0x00C0, 0x00C1, 0x00C2, 0x00C3, 0x00C4, 0x00C5]),
   ("AE", [0x00C6]),
   ("C", [0x00C7]),
   ("E", [0x00C8, 0x00C9, 0x00CA, 0x00CB]),
   ("I", [0x00CC, 0x00CD, 0x00CE, 0x00CF]),
   ("D", [0x00D0]),
   ("N", [0x00D1]),
   ("O", [0x00D2, 0x00D3, 0x00D4, 0x00D5, 0x00D6, 0x00D8]),
   ("U", [0x00D9, 0x00DA, 0x00DB, 0x00DC]),
   ("Y", [0x00DD]),
   ("ss", [0x00DF]),
   ("a", [0x00E0, 0x00E1, 0x00E2, 0x00E3, 0x00E4, 0x00E5]),
   ("ae", [0x00E6]),
   ("c", [0x00E7]),
   ("e", [0x00E8, 0x00E9, 0x00EA, 0x00EB]),
   ("i", [0x00EC, 0x00ED, 0x00EE, 0x00EF]),
   ("d", [0x00F0]),
   ("n", [0x00F1]),
   ("o", [0x00F2, 0x00F3, 0x00F4, 0x00F5, 0x00F6, 0x00F8]),
   ("u", [0x00F9, 0x00FA, 0x00FB, 0x00FC]),
   ("y", [0x00FD, 0x00FF]),
   ("TH", [0x00DE]),
   ("th", [0x00FE]),
   ("A", [0x0100, 0x0102, 0x0104]),
   ("a", [0x0101, 0x0103, 0x0105]),
   ("C", [0x0106, 0x0108, 0x010A, 0x010C]),
   ("c", [0x0107, 0x0109, 0x010B, 0x010D]),
   ("D", [0x010E, 0x0110]),
   ("d", [0x0110, 0x0111]),
   ("E", [0x0112, 0x0114, 0x0116, 0x0118, 0x011A]),
   ("e", [0x0113, 0x0115, 0x0117, 0x0119, 0x011B]),
   ("I", [0x0128, 0x012A, 0x012C, 0x012E, 0x0130]),
   ("i", [0x0129, 0x012B, 0x012D, 0x012F, 0x0131]),
   ("IJ", [0x0132]),
   ("ij", [0x0133]),
   ("J", [0x0134]),
   ("j", [0x0135]),
   ("K", [0x0136]),
   ("k", [0x0137, 0x0138]),
   ("L", [0x0139, 0x013B, 0x013D, 0x013F, 0x0141]),
   ("l", [0x013A, 0x013C, 0x013E, 0x0140, 0x0142]),
   ("N", [0x0143, 0x0145, 0x0147, 0x014A]),
   ("n", [0x0144, 0x0146, 0x0148, 0x0149, 0x014B]),
   ("O", [0x014C, 0x014E, 0x0150]),
   ("o", [0x014D, 0x014F, 0x0151]),
   ("OE", [0x0152]),
   ("oe", [0x0153]),
   ("R", [0x0154, 0x0156, 0x0158]),
   ("r", [0x0155, 0x0157, 0x0159]),
   ("S", [0x015A, 0x015C, 0x015E, 0x0160]),
   ("s", [0x015B, 0x015D, 0x015F, 0x0161, 0x017F]),
   ("T", [0x0162, 0x0164, 0x0166]),
   ("t", [0x0163, 0x0165, 0x0167]),
   ("U", [0x0168, 0x016A, 0x016C, 0x016E, 0x0170, 0x0172]),
   ("u", [0x0169, 0x016B, 0x016D, 0x016F, 0x0171, 0x0173]),
   ("W", [0x0174]),
   ("w", [0x0175]),
   ("Y", [0x0176, 0x0178]),
   ("y", [0x0177]),
   ("Z", [0x0179, 0x017B, 0x017D]),
   ("z", [0x017A, 0x017C, 0x017E])]

/-- `UNICODE_TO_ASCII_MAP`, SDeburr.h:58-133: later assignments to a code point replace earlier ones.
`none` is a null pointer. -/
def asciiMap (cp : Nat) : Option Bytes :=
  mappings.foldl (fun acc m => if cp ∈ m.2 then some (str m.1) else acc) none

/-- `unicodeToAscii`, SDeburr.cpp:12-21. -/
def unicodeToAscii (cp : Nat) : Option Bytes :=
  if 0xC0 ≤ cp ∧ cp ≤ 0x17F then asciiMap cp else none

/-- `countl_one` of a byte: how many of its high bits are set before the first clear one. -/
def leadingOnes (b : UInt8) : Nat :=
  if b < 0x80 then 0 else if b < 0xC0 then 1 else if b < 0xE0 then 2 else if b < 0xF0 then 3
  else if b < 0xF8 then 4 else if b < 0xFC then 5 else if b < 0xFE then 6 else if b < 0xFF then 7 else 8

/-- The continuation bytes of one sequence, SDeburr.cpp:79-92: at most `k`, stopping at the first byte
that is not one.  Gives the code point, the bytes taken and the rest. -/
def continuation : Nat → Nat → Bytes → Nat × Bytes × Bytes
  | 0, cp, s => (cp, [], s)
  | _ + 1, cp, [] => (cp, [], [])
  | k + 1, cp, b :: s =>
    if leadingOnes b = 1 then
      let r := continuation k (cp * 64 + b.toNat % 64) s
      (r.1, b :: r.2.1, r.2.2)
    else (cp, [], b :: s)

/-- What one sequence turns into, SDeburr.cpp:94-109. -/
def emit (cp : Nat) (raw : Bytes) : Bytes :=
  if 0x300 ≤ cp ∧ cp ≤ 0x36F then []
  else match unicodeToAscii cp with
    | none => raw
    | some m => m

/-- The loop, SDeburr.cpp:29-110.  The first argument bounds the number of rounds; each round takes at
least one byte, so the length of the text is enough. -/
def go : Nat → Bytes → Bytes
  | 0, _ => []
  | _ + 1, [] => []
  | f + 1, b :: s =>
    let n := leadingOnes b
    if n = 0 then b :: go f s
    else if n = 1 ∨ 4 < n ∨ (b :: s).length < n then go f s
    else
      let r := continuation (n - 1) (b.toNat % 2 ^ (7 - n)) s
      emit r.1 (b :: r.2.1) ++ go f r.2.2

/-- `SDeburr::deburr`, SDeburr.cpp:23-117. -/
def deburr (s : Bytes) : Bytes := go (cstr s).length (cstr s)

/-- The SQL function `DEBURR`, SDeburr.cpp:119-143: NULL stays NULL. -/
def sqlDeburr (v : Option Bytes) : Option Bytes := v.map deburr

end Bedrock.Deburr
