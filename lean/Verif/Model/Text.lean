import Verif.Model.Basic

/-!
# Model of the text codecs of `libstuff`

Every function here is a line-by-line transcription of a function in
`/repo/libstuff/libstuff.cpp` or `libstuff.h`; the lines are cited at each definition.
A `std::string` is a list of bytes, a `const char*` argument is the bytes before the first NUL.

Characters are compared in the "C" locale (nothing in `/repo` calls `setlocale`).
-/

namespace Bedrock.Text

/-- A string literal of the C++ source (ASCII only). -/
def str (s : String) : Bytes := s.toList.map (fun c => UInt8.ofNat c.toNat)

/-- A character literal of the C++ source. -/
def chr (c : Char) : UInt8 := UInt8.ofNat c.toNat

/-- What a function taking `const char*` sees of a `std::string` passed as `c_str()`. -/
def cstr (s : Bytes) : Bytes := s.takeWhile (· ≠ 0)

/-- `isspace` in the C locale: tab, LF, VT, FF, CR, space. -/
def isSpace (c : UInt8) : Bool := (9 ≤ c && c ≤ 13) || c == 32

/-- `tolower` in the C locale. -/
def toLower (c : UInt8) : UInt8 := if 65 ≤ c && c ≤ 90 then c + 32 else c

/-- `SToLower`, libstuff.cpp:435-439. -/
def sToLower (s : Bytes) : Bytes := s.map toLower

/-! ## Hexadecimal: libstuff.cpp:334-398 -/

/-- `digit < 10 ? '0' + digit : 'A' + (digit - 10)`, libstuff.cpp:343, 356, 357. -/
def hexDigit (d : Nat) : UInt8 := if d < 10 then UInt8.ofNat (48 + d) else UInt8.ofNat (65 + (d - 10))

/-- `SToHex(uint64_t value, int digits)`, libstuff.cpp:334-346: fills `digits` characters from the
back.  A negative `digits` makes `resize` throw; `digits` is a natural number here. -/
def toHexNum (value : UInt64) : Nat → Bytes
  | 0 => []
  | n + 1 => toHexNum (value / 16) n ++ [hexDigit (value % 16).toNat]

/-- `SToHex(const string&)`, libstuff.cpp:348-360: two digits per byte. -/
def toHexStr (s : Bytes) : Bytes :=
  s.flatMap fun (b : UInt8) => [hexDigit (b >>> 4).toNat, hexDigit (b &&& 15).toNat]

/-- The three accepted digit ranges of `SFromHex`, libstuff.cpp:375-381. -/
def hexVal (c : UInt8) : Option Nat :=
  if 48 ≤ c && c ≤ 57 then some (c.toNat - 48)
  else if 97 ≤ c && c ≤ 102 then some (c.toNat - 97 + 10)
  else if 65 ≤ c && c ≤ 70 then some (c.toNat - 65 + 10)
  else none

/-- The loop of `SFromHex`, libstuff.cpp:372-387, with `binValue` as accumulator.  On an invalid
character the shift just made is undone (`>>= 4`), which also clears the top four bits. -/
def fromHexGo (acc : UInt64) : Bytes → UInt64
  | [] => acc
  | c :: rest =>
    match hexVal c with
    | some d => fromHexGo (acc <<< 4 + UInt64.ofNat d) rest
    | none => (acc <<< 4) >>> 4

/-- `SFromHex(const string&)`, libstuff.cpp:368-388.  The C++ loop counter is an `int`, so strings
of 2^31 or more characters are out of the model. -/
def fromHex (s : Bytes) : UInt64 := fromHexGo 0 s

/-- The digits part of `strtol(..., 16)` / `%x`: the value of the longest prefix of hex digits. -/
def hexPrefix (acc : Nat) : Bytes → Nat
  | [] => acc
  | c :: rest => match hexVal c with
    | some d => hexPrefix (acc * 16 + d) rest
    | none => acc

/-- After sign handling both `strtol` with base 16 and `%x` skip a `0x`/`0X` prefix.  A bare `0x`
reads as 0 either way. -/
def skip0x : Bytes → Bytes
  | 48 :: 120 :: rest => rest
  | 48 :: 88 :: rest => rest
  | s => s

/-- The value read by `strtol(s, 0, 16)` or `sscanf(s, "%x")` from a C string: leading white space,
an optional sign, an optional `0x`, hex digits.  With nothing to read the value is 0 (for `strtol`
that is its result, for `sscanf` the variable keeps its initial 0). -/
def scanHex (s : Bytes) : Int :=
  match (cstr s).dropWhile isSpace with
  | 45 :: rest => - (hexPrefix 0 (skip0x rest) : Int)
  | 43 :: rest => hexPrefix 0 (skip0x rest)
  | rest => hexPrefix 0 (skip0x rest)

/-- `SStrFromHex`, libstuff.cpp:390-398: `(char) strtol(buffer.substr(i, 2).c_str(), 0, 16)`
for `i = 0, 2, 4, …`. -/
def strFromHex : Bytes → Bytes
  | [] => []
  | [a] => [UInt8.ofInt (scanHex [a])]
  | a :: b :: rest => UInt8.ofInt (scanHex [a, b]) :: strFromHex rest

/-! ## Decimal numbers -/

/-- `SToStr` / `to_string` / `ostream <<` of an unsigned integer (libstuff.h:444-449). -/
def natDec (n : Nat) : Bytes :=
  if n < 10 then [UInt8.ofNat (48 + n)] else natDec (n / 10) ++ [UInt8.ofNat (48 + n % 10)]

/-- `to_string` of a signed integer. -/
def intDec (i : Int) : Bytes := if i < 0 then 45 :: natDec i.natAbs else natDec i.natAbs

/-- The value of a decimal digit. -/
def decVal (c : UInt8) : Option Nat := if 48 ≤ c && c ≤ 57 then some (c.toNat - 48) else none

/-- The value of the longest prefix of decimal digits. -/
def decPrefix (acc : Nat) : Bytes → Nat
  | [] => acc
  | c :: rest => match decVal c with
    | some d => decPrefix (acc * 10 + d) rest
    | none => acc

/-- Does a text begin with a decimal digit? -/
def startsDec : Bytes → Bool
  | [] => false
  | c :: _ => (decVal c).isSome

/-- What `strtoll`, `stoll` and friends read in base 10, before any range check: leading white
space, an optional sign, digits.  `none` if there is no digit. -/
def scanDec (s : Bytes) : Option Int :=
  match (cstr s).dropWhile isSpace with
  | 45 :: rest => if startsDec rest then some (- (decPrefix 0 rest : Int)) else none
  | 43 :: rest => if startsDec rest then some (decPrefix 0 rest : Int) else none
  | rest => if startsDec rest then some (decPrefix 0 rest : Int) else none

/-- `strtoll(s, 0, 10)`: 0 if nothing can be read, clamped to the range of `int64_t`. -/
def strtoll (s : Bytes) : Int :=
  match scanDec s with
  | none => 0
  | some v => if v < -2 ^ 63 then -2 ^ 63 else if 2 ^ 63 - 1 < v then 2 ^ 63 - 1 else v

/-- `std::stoll(s)`: `none` stands for the exception thrown when nothing can be read or the value
does not fit. -/
def stoll (s : Bytes) : Option Int :=
  match scanDec s with
  | none => none
  | some v => if v < -2 ^ 63 ∨ 2 ^ 63 - 1 < v then none else some v

/-- Conversion of an integer to `int` (two's complement, 32 bits). -/
def toInt32 (v : Int) : Int := (v + 2 ^ 31) % 2 ^ 32 - 2 ^ 31

/-! ## Comparison -/

/-- `SIEquals`, libstuff.cpp:3453-3456: `strcasecmp` of the two C strings. -/
def sIEquals (a b : Bytes) : Bool := sToLower (cstr a) == sToLower (cstr b)

/-! ## Escaping: libstuff.cpp:539-661 -/

/-- What `SEscape` writes after the escape character for the byte `c`, libstuff.cpp:548-564.
`sprintf("u%04x")` of a value below 0x80 is `u00` and two lower-case digits. -/
def escapeCode (c : UInt8) : Bytes :=
  if c = 8 then [98]
  else if c = 12 then [102]
  else if c = 10 then [110]
  else if c = 13 then [114]
  else if c = 9 then [116]
  else if (0 < c && c < 32) || c = 127 then
    [117, 48, 48, toLower (hexDigit (c.toNat / 16)), toLower (hexDigit (c.toNat % 16))]
  else [c]

/-- One iteration of the loop of `SEscape`, libstuff.cpp:543-570. -/
def escapeByte (special : Bytes) (esc c : UInt8) : Bytes :=
  if c ∈ special ∨ c = esc then esc :: escapeCode c else [c]

/-- `SEscape`, libstuff.cpp:539-573; both overloads work on a C string. -/
def escape (s special : Bytes) (esc : UInt8) : Bytes := (cstr s).flatMap (escapeByte special esc)

/-- The UTF-8 expansion of a scanned `\u` value, libstuff.cpp:605-649.  `utfValue &= ~(byte << 6)`
with `byte = 0xc0 | (utfValue >> 6)` clears the bits of `utfValue >> 6` shifted back, that is
leaves `utfValue % 64`; likewise `% 4096` for the three byte form.  Nothing is written for a value
above 0xffff (possible for a scanned negative number only). -/
def utf8Expand (v : Nat) : Bytes :=
  if v ≤ 0x7f then [UInt8.ofNat v]
  else if v ≤ 0x7ff then [UInt8.ofNat (0xc0 + v / 64), UInt8.ofNat (0x80 + v % 64 % 64)]
  else if v ≤ 0xffff then
    [UInt8.ofNat (0xe0 + v / 4096), UInt8.ofNat (0x80 + v % 4096 / 64 % 64),
     UInt8.ofNat (0x80 + v % 4096 % 64)]
  else []

/-- `utfValue` after `sscanf(utfCode, "%04x", &utfValue)`: an `unsigned int`, libstuff.cpp:598-601. -/
def utfScan (code : Bytes) : Nat := (scanHex code % 2 ^ 32).toNat

/-- The single character escapes of `SUnescape`, libstuff.cpp:584-594 and 652. -/
def unescapeCode (c : UInt8) : UInt8 :=
  if c = 98 then 8 else if c = 102 then 12 else if c = 110 then 10
  else if c = 114 then 13 else if c = 116 then 9 else c

/-- The loop of `SUnescape` on a C string, libstuff.cpp:580-659. -/
def unescapeGo (esc : UInt8) : Bytes → Bytes
  | [] => []
  | [c] => [c]
  | c :: d :: rest =>
    if c = esc then
      if d = 117 ∧ 4 ≤ rest.length then
        utf8Expand (utfScan (rest.take 4)) ++ unescapeGo esc (rest.drop 4)
      else unescapeCode d :: unescapeGo esc rest
    else c :: unescapeGo esc (d :: rest)
  termination_by s => s.length

/-- `SUnescape`, libstuff.cpp:576-661; both overloads work on a C string. -/
def unescape (s : Bytes) (esc : UInt8) : Bytes := unescapeGo esc (cstr s)

/-! ## SQL quoting: libstuff.cpp:3607-3615, libstuff.h:702-709 -/

/-- `SQ(const string&)`. -/
def sq (s : Bytes) : Bytes := [39] ++ escape s [39] 39 ++ [39]

/-! ## Lists: libstuff.cpp:808-843, libstuff.h:573-584 -/

/-- State of the loop of `SParseList`: finished elements and the component being read. -/
structure ListParse where
  done : List Bytes := []
  component : Bytes := []
  deriving DecidableEq, Repr

/-- One iteration of the loop, libstuff.cpp:815-833. -/
def ListParse.step (sep : UInt8) (p : ListParse) (c : UInt8) : ListParse :=
  if p.component = [] ∧ c = 32 then p
  else if c = sep then
    { done := if p.component = [] then p.done else p.done ++ [p.component], component := [] }
  else { p with component := p.component ++ [c] }

/-- `SParseList(const char*, list<string>&, char)`, libstuff.cpp:808-843: the list and the
returned flag. -/
def parseList (s : Bytes) (sep : UInt8) : List Bytes × Bool :=
  let p := (cstr s).foldl (ListParse.step sep) {}
  (if p.component = [] then p.done else p.done ++ [p.component], !(p.component = []))

/-- `SComposeList` on strings, libstuff.h:573-584: every element followed by the separator, then
the last separator cut off. -/
def composeList (l : List Bytes) (sep : Bytes) : Bytes :=
  if l = [] then [] else
    let working := l.flatMap (fun v => v ++ sep)
    working.take (working.length - sep.length)

/-- `SQList(container of strings)`, libstuff.h:702-709. -/
def sqList (l : List Bytes) : Bytes := composeList (l.map sq) [44, 32]

/-! ## URL components: libstuff.cpp:1190-1234, 1433-1490 -/

/-- The characters `SEncodeURIComponent` copies, libstuff.cpp:1443, 1452-1462. -/
def uriSafe (c : UInt8) : Bool :=
  (97 ≤ c && c ≤ 122) || (65 ≤ c && c ≤ 90) || (48 ≤ c && c ≤ 57) ||
  c == 45 || c == 95 || c == 46 || c == 33 || c == 126 || c == 42 || c == 40 || c == 41

/-- One iteration of `SEncodeURIComponent`, libstuff.cpp:1440-1471. -/
def uriEncodeByte (c : UInt8) : Bytes :=
  if uriSafe c then [c]
  else if c = 32 then [43]
  else [37, hexDigit (c >>> 4).toNat, hexDigit (c &&& 15).toNat]

/-- `SEncodeURIComponent`, libstuff.cpp:1433-1476. -/
def uriEncode (s : Bytes) : Bytes := s.flatMap uriEncodeByte

/-- `_SDecodeURIChar` for at least three remaining characters beginning with `%`,
libstuff.cpp:1203-1233: the bytes appended and the number of characters consumed. -/
def uriDecodeTriple (a b : UInt8) : Bytes × Nat :=
  match hexVal a with
  | none => ([37, a], 2)
  | some x =>
    match hexVal b with
    | none => ([37, a, b], 3)
    | some y => ([UInt8.ofNat (x * 16 + y)], 3)

/-- `_SDecodeURIChar`, libstuff.cpp:1190-1234: the bytes appended to `out` and the number of
characters consumed.  Not called on an empty buffer. -/
def uriDecodeChar : Bytes → Bytes × Nat
  | 37 :: a :: b :: _ => uriDecodeTriple a b
  | 43 :: _ => ([32], 1)
  | c :: _ => ([c], 1)
  | [] => ([], 1)

theorem uriDecodeChar_consumes (s : Bytes) : 1 ≤ (uriDecodeChar s).2 := by
  unfold uriDecodeChar
  split
  · unfold uriDecodeTriple; split
    · simp
    · split <;> simp
  all_goals simp

/-- `SDecodeURIComponent`, libstuff.cpp:1479-1490. -/
def uriDecode : Bytes → Bytes
  | [] => []
  | c :: rest =>
    (uriDecodeChar (c :: rest)).1 ++ uriDecode ((c :: rest).drop (uriDecodeChar (c :: rest)).2)
  termination_by s => s.length
  decreasing_by
    have := uriDecodeChar_consumes (c :: rest)
    simp only [List.length_drop, List.length_cons]; omega

/-! ## Constant time comparison: libstuff.cpp:747-772 -/

/-- The comparison and the pairs of positions (in the secret, in the user input) it reads, in
order, libstuff.cpp:759-763. -/
def constTimeLoop (secret input : Bytes) (equal : Bool) : Nat → Nat → Bool × List (Nat × Nat)
  | _, 0 => (equal, [])
  | i, n + 1 =>
    let r := constTimeLoop secret input
      (equal && secret.getD i 0 == input.getD (i % input.length) 0) (i + 1) n
    (r.1, (i, i % input.length) :: r.2)

/-- `SConstantTimeEquals`, libstuff.cpp:747-765. -/
def constTimeEquals (secret input : Bytes) : Bool × List (Nat × Nat) :=
  if secret.isEmpty != input.isEmpty then (false, [])
  else constTimeLoop secret input (secret.length == input.length) 0 secret.length

/-- `SConstantTimeIEquals`, libstuff.cpp:768-772. -/
def constTimeIEquals (secret input : Bytes) : Bool × List (Nat × Nat) :=
  constTimeEquals (sToLower secret) (sToLower input)

/-! ## Trimming: libstuff.cpp:467-482 -/

/-- `STrim`, libstuff.cpp:467-482.  The front loop also stops at a NUL, which is not white space
anyway; the back loop never passes the front, so one white space character survives only if the
front loop left it, which it does not: the front stops at the terminating NUL of an all-blank
string, `back` is then before `front` and `string(front, ++back)` is the empty range. -/
def trim (s : Bytes) : Bytes :=
  ((s.dropWhile isSpace).reverse.dropWhile isSpace).reverse

end Bedrock.Text
