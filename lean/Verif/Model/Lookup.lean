import Verif.Model.Http

/-!
# Peers by name, random IDs, and months

sqlitecluster/SQLiteNode.cpp: `getPeerByName`; sqlitecluster/SQLiteUtils.cpp: `getRandomID`; libstuff/STime.cpp:
`SDaysInMonth`, `SFirstOfMonth`.
-/

namespace Bedrock.Lookup
open Bedrock Bedrock.Text Bedrock.Http

/-! ## Peers -/

/-- What the search looks at: the name, and the position in the configuration (SQLiteNode.cpp:98). -/
structure Peer where
  name : Bytes
  id : Nat
  deriving DecidableEq, Repr

/-- `std::lower_bound` from `first` over `len` elements: halve the range until it is empty. -/
def lowerBound (l : List Peer) (name : Bytes) (first len : Nat) : Nat :=
  if len = 0 then first
  else match l[first + len / 2]? with
    | none => first
    | some p =>
      if lexLt p.name name then lowerBound l name (first + len / 2 + 1) (len - len / 2 - 1)
      else lowerBound l name first (len / 2)
termination_by len

/-- `getPeerByName`, SQLiteNode.cpp:2300-2311. -/
def getPeerByName (l : List Peer) (name : Bytes) : Option Peer :=
  match l[lowerBound l name 0 l.length]? with
  | some p => if p.name = name then some p else none
  | none => none

/-! ## Random IDs -/

/-- The candidate made of one random number, SQLiteUtils.cpp:12-23: as `int64_t`, the least value plus one, then the
absolute value. -/
def candidate (r : UInt64) : Int :=
  let n : Int := if r.toNat < 2 ^ 63 then r.toNat else (r.toNat : Int) - 2 ^ 64
  let n := if n = -2 ^ 63 then n + 1 else n
  n.natAbs

/-- `getRandomID`, SQLiteUtils.cpp:7-32: `rnd k` is the number drawn in round `k` and `found k id` whether the query of
that round returns something.  `none` if none of the rounds up to `fuel` ends the loop. -/
def randomID (rnd : Nat → UInt64) (found : Nat → Int → Bool) : Nat → Nat → Option Int
  | 0, _ => none
  | fuel + 1, k =>
    let id := if found k (candidate (rnd k)) then 0 else candidate (rnd k)
    if id ≠ 0 then some id else randomID rnd found fuel (k + 1)

/-! ## Months -/

/-- `SDaysInMonth`, STime.cpp:53-63; `%` of C++. -/
def daysInMonth (year month : Int) : Int :=
  if month = 4 ∨ month = 6 ∨ month = 9 ∨ month = 11 then 30
  else if month = 2 then
    if (year.tmod 4 = 0 ∧ year.tmod 100 ≠ 0) ∨ year.tmod 400 = 0 then 29 else 28
  else 31

/-- `stoull(s, 0, 10)`: a minus sign is accepted and wraps; `none`: an exception. -/
def stoull (s : Bytes) : Option Nat :=
  match scanDec s with
  | none => none
  | some v => if v ≤ -2 ^ 64 ∨ 2 ^ 64 ≤ v then none else some (v % 2 ^ 64).toNat

/-- Two's complement in 64 bits. -/
def toInt64 (v : Int) : Int := (v + 2 ^ 63) % 2 ^ 64 - 2 ^ 63

/-- A number of at least two digits, as `strftime` writes `%m` and `%d`. -/
def two (n : Nat) : Bytes := if n < 10 then 48 :: natDec n else natDec n

/-- What `SFirstOfMonth` does. -/
inductive Outcome where
  | ok (s : Bytes)
  /-- `500 Error parsing year` or `... month` -/
  | throws
  /-- undefined behaviour: `front()` of an empty list, or overflow of `int64_t` -/
  | undefined
  /-- `strftime` of a month outside 0 to 11, which C leaves open; `00` and negative numbers in practice -/
  | unspecified
  deriving DecidableEq, Repr

/-- `SFirstOfMonth`, STime.cpp:101-138.  The year is printed without padding (a year
before 1000 may be padded in fact). -/
def firstOfMonth (ts : Bytes) (offset : Int) : Outcome :=
  match (parseList ts 45).1 with
  | [] => .undefined
  | y :: parts => match stoull y with
    | none => .throws
    | some y => match parts with
      | [] => .undefined
      | m :: _ => match stoull m with
        | none => .throws
        | some m =>
          let year := toInt64 ((y : Int) - 1900)
          let month := toInt64 ((m : Int) - 1)
          let total := year * 12 + month + offset
          if year * 12 < -2 ^ 63 ∨ 2 ^ 63 ≤ year * 12 ∨ year * 12 + month < -2 ^ 63 ∨ 2 ^ 63 ≤ year * 12 + month ∨
              total < -2 ^ 63 ∨ 2 ^ 63 ≤ total then .undefined
          else if total.tmod 12 < 0 then .unspecified
          else .ok (intDec (toInt32 (total.tdiv 12) + 1900) ++ [45] ++ two (total.tmod 12 + 1).toNat ++ [45] ++ two 1)

end Bedrock.Lookup
