import Verif.Model.Search

/-!
# Editing text

libstuff: `SCollapse`, `SStrip`, `SReplace`, `SReplaceAll`, `SBefore`, `SAfter` and their relatives, lists of numbers,
names of states, and the two functions for base 32.
-/

namespace Bedrock.Edit
open Bedrock Bedrock.Text

/-- One byte of `SCollapse`: what has been written, and `inWhite`. -/
def collapseStep (st : Bytes × Bool) (c : UInt8) : Bytes × Bool :=
  if isSpace c then (if st.2 then st.1 else st.1 ++ [32], true) else (st.1 ++ [c], false)

/-- `SCollapse`, libstuff.cpp:485-504.  The loop ends at a NUL. -/
def collapse (s : Bytes) : Bytes := ((cstr s).foldl collapseStep ([], false)).1

/-- `isprint` in the "C" locale. -/
def isPrint (c : UInt8) : Bool := 32 ≤ c && c ≤ 126

/-- `SStrip(lhs)`, libstuff.cpp:507-518. -/
def stripUnprintable (s : Bytes) : Bytes := (cstr s).filter isPrint

/-- `SStrip(lhs, chars, charsAreSafe)`, libstuff.cpp:521-535. -/
def strip (s chars : Bytes) (safe : Bool) : Bytes := (cstr s).filter (fun c => chars.contains c == safe)

/-- `SStripNonNum`, libstuff.cpp:3472-3475, by `SStripAllBut`, 3467-3470. -/
def stripNonNum (s : Bytes) : Bytes := strip s (str "0123456789") true

/-- `SStripTrim`, libstuff.cpp:3487-3490. -/
def stripTrim (s : Bytes) : Bytes := trim (stripUnprintable s)

/-- The loop of `SReplace`, libstuff.cpp:683-695. -/
def replaceGo (find rep : Bytes) (s : Bytes) : Bytes :=
  if h : find = [] then s
  else match hf : findSub find s with
    | none => s
    | some i => s.take i ++ rep ++ replaceGo find rep (s.drop (i + find.length))
termination_by s.length
decreasing_by
  have : 0 < find.length := List.length_pos_iff.mpr h
  have := (findSub_some hf).1
  simp only [List.length_drop]
  omega

/-- `SReplace`, libstuff.cpp:664-696. -/
def replace (s find rep : Bytes) : Bytes :=
  if find = [] then s
  else match findSub find s with
    | none => s
    | some _ => replaceGo find rep s

/-- `SReplaceAllBut`, libstuff.cpp:699-714. -/
def replaceAllBut (s safe : Bytes) (r : UInt8) : Bytes := s.map (fun c => if safe.contains c then c else r)

/-- `SReplaceAll`, libstuff.cpp:717-732. -/
def replaceAll (s bad : Bytes) (r : UInt8) : Bytes := s.map (fun c => if bad.contains c then r else c)

/-- `SStateNameToInt`, libstuff.cpp:735-744. -/
def stateNameToInt (states : List Bytes) (name : Bytes) : Int :=
  match states.findIdx? (fun s => sIEquals s name) with
  | some i => i
  | none => -1

/-- `SParseIntegerList` and `SParseIntegerVector`, libstuff.cpp:775-804; `SToInt64` is `strtoll`. -/
def parseInts (s : Bytes) (sep : UInt8) : List Int := (parseList s sep).1.map strtoll

/-- Insertion in a `std::set`. -/
def setInsert (v : Int) : List Int → List Int
  | [] => [v]
  | x :: l => if v < x then v :: x :: l else if x < v then x :: setInsert v l else x :: l

/-- `SParseIntegerSet`, libstuff.cpp:786-794. -/
def parseIntSet (s : Bytes) (sep : UInt8) : List Int := (parseInts s sep).foldl (fun l v => setInsert v l) []

/-- `SBefore`, libstuff.cpp:3492-3500. -/
def before (s needle : Bytes) : Bytes :=
  match findSub needle s with
  | none => []
  | some i => s.take i

/-- `SAfter`, libstuff.cpp:3502-3510. -/
def after (s needle : Bytes) : Bytes :=
  match findSub needle s with
  | none => []
  | some i => s.drop (i + needle.length)

/-- `SAfterLastOf`, libstuff.cpp:3512-3520: `find_last_of` looks for any of the bytes. -/
def afterLastOf (s chars : Bytes) : Bytes :=
  if s.any chars.contains then (s.reverse.takeWhile (fun c => !chars.contains c)).reverse else []

/-- `SAfterUpTo`, libstuff.cpp:3522-3525. -/
def afterUpTo (s a b : Bytes) : Bytes := before (after s a) b

/-- `SEndsWith`, libstuff.cpp:3458-3465. -/
def endsWith (s needle : Bytes) : Bool :=
  if s.length < needle.length then false else s.drop (s.length - needle.length) == needle

/-! ## Base 32 -/

inductive B32 where
  | ok (s : Bytes)
  /-- an exception -/
  | thrown
  /-- a read outside the table -/
  | undefined
  deriving DecidableEq, Repr

/-- The table of libstuff.cpp:402, with the NUL at its end. -/
def hexMap : List UInt8 := str "QRSTUV" ++ List.replicate 9 0 ++ str "0123456789ABCDEFGHIJKLMNOP" ++ [0]

/-- The value of a `char`, which is signed. -/
def signed (c : UInt8) : Int := if c < 128 then c.toNat else (c.toNat : Int) - 256

/-- One iteration, libstuff.cpp:407-411. -/
def base32HexByte (c : UInt8) : B32 :=
  let i := signed c - 50
  if (42 : Int) < i then .thrown
  else if i < 0 ∨ 42 ≤ i then .undefined
  else match hexMap[i.toNat]? with
    | some 0 => .thrown
    | some x => .ok [x]
    | none => .undefined

/-- `SBase32HexStringFromBase32`, libstuff.cpp:400-415. -/
def base32Hex : Bytes → B32
  | [] => .ok []
  | c :: s => match base32HexByte c with
    | .ok x => match base32Hex s with
      | .ok r => .ok (x ++ r)
      | e => e
    | e => e

/-- The value of a digit in base 32. -/
def digit32 (c : UInt8) : Option Nat :=
  if 48 ≤ c && c ≤ 57 then some (c.toNat - 48)
  else if 65 ≤ c && c ≤ 86 then some (c.toNat - 55)
  else if 97 ≤ c && c ≤ 118 then some (c.toNat - 87)
  else none

/-- The longest run of digits in base 32. -/
def digits32 (s : Bytes) : Bytes := s.takeWhile (fun c => (digit32 c).isSome)

def value32 (s : Bytes) : Nat := s.foldl (fun a c => a * 32 + (digit32 c).getD 0) 0

/-- `stoull(s, 0, 32)` of at most eight bytes: white space, a sign, digits; the rest is ignored. -/
def stoull32 (s : Bytes) : Option UInt64 :=
  match (cstr s).dropWhile isSpace with
  | 45 :: r => if digits32 r = [] then none else some (0 - UInt64.ofNat (value32 (digits32 r)))
  | 43 :: r => if digits32 r = [] then none else some (UInt64.ofNat (value32 (digits32 r)))
  | r => if digits32 r = [] then none else some (UInt64.ofNat (value32 (digits32 r)))

/-- The loop of `SHexStringFromBase32`, libstuff.cpp:424-427, which goes from the end: what it puts in front of `hex`. -/
def hexFrom32Go : List Bytes → Option Bytes
  | [] => some []
  | b :: bs => match hexFrom32Go bs, stoull32 b with
    | some hex, some v => some (toHexNum v 10 ++ hex)
    | _, _ => none

/-- The blocks of eight bytes. -/
def blocks8 : Bytes → List Bytes
  | a :: b :: c :: d :: e :: f :: g :: h :: r => [a, b, c, d, e, f, g, h] :: blocks8 r
  | _ => []

/-- `SHexStringFromBase32`, libstuff.cpp:417-430; `none` is an exception. -/
def hexFrom32 (s : Bytes) : Option Bytes := if s.length % 8 ≠ 0 then none else hexFrom32Go (blocks8 s)

end Bedrock.Edit
