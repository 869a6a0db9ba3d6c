import Verif.Model.Text
import Verif.Model.Search
import Verif.Model.Literal

/-!
# Where a commit conflicted, and what the next attempt waits for

SQLite tells why a commit failed only in its log.  `SQLite::_sqliteLogCallback` (SQLite.cpp:400-436) reads the page or the row
from there into variables of the thread, `SQLite::commit` (1097-1098, 1116, 1136-1137, 1220-1221) copies them to the handle, and
`BedrockServer::runCommand` (626-627, 687, 801-814) takes the lock of that page or row before it tries again.  The lock itself
is `Model/ConflictLock`.  `std::hash<string>` is any function.
-/

namespace Bedrock.Conflict
open Bedrock Bedrock.Text

/-- `^.*R` for an `R` given by what it finds at the start of a text: the last place where it finds something. -/
def findLast (p : Bytes → Option Bytes) : Bytes → Option Bytes
  | [] => p []
  | c :: s => match findLast p s with
    | some r => some r
    | none => p (c :: s)

/-- A pattern `^.*R.*$` replaced by what `R` finds, SREReplace (libstuff.cpp:3282-3322): a dot does not match a newline and `$` also
matches before a newline at the very end.  The text itself if there is no match. -/
def replaceAll (p : Bytes → Option Bytes) (s : Bytes) : Bytes :=
  if 10 ∉ s then (findLast p s).getD s
  else if s.getLast? = some 10 ∧ 10 ∉ s.dropLast then ((findLast p s.dropLast).map (· ++ [10])).getD s
  else s

/-- What follows one of two words. -/
def afterEither (a b s : Bytes) : Option Bytes :=
  if a.isPrefixOf s then some (s.drop a.length) else if b.isPrefixOf s then some (s.drop b.length) else none

/-- `part of db (table|index) (.*?);`, SQLite.cpp:422. -/
def pagePart (s : Bytes) : Option Bytes :=
  (afterEither (b!"part of db table ") (b!"part of db index ") s).bind fun r => if 59 ∈ r then some (r.takeWhile (· != 59)) else none

/-- `\S+`. -/
def word (s : Bytes) : Option Bytes :=
  let w := s.takeWhile fun c => !isSpace c
  if w = [] then none else some w

/-- `conflict on (?:index|table) (\S+)`, SQLite.cpp:429. -/
def rowPart (s : Bytes) : Option Bytes :=
  (afterEither (b!"conflict on index ") (b!"conflict on table ") s).bind word

/-- `key=(\S+)`, SQLite.cpp:431. -/
def keyPart (s : Bytes) : Option Bytes :=
  if (b!"key=").isPrefixOf s then word (s.drop 4) else none

/-- `_conflictIdentifier` and `_conflictLocation`. -/
structure Place where
  ident : Int := 0
  loc : Bytes := []
deriving DecidableEq, Repr

/-- `_sqliteLogCallback`, SQLite.cpp:400-436, on the variables of its thread. -/
def logged (hash : Bytes → Int) (msg : Bytes) (t : Place) : Place :=
  if sContains msg (b!"automatic index on") then t
  else if (b!"cannot commit").isPrefixOf msg then
    match findSub (b!"conflict at page ") msg with
    | some i => { ident := strtoll (msg.drop (i + 17)), loc := replaceAll pagePart msg }
    | none => t
  else if (b!"write/write conflict on").isPrefixOf msg || (b!"read/write conflict on").isPrefixOf msg then
    let loc := replaceAll rowPart msg
    { loc, ident := if sContains msg (b!"key=") then hash (loc ++ replaceAll keyPart msg) else 0 }
  else t

/-- What all threads log, in order: the variables of each. -/
def run (hash : Bytes → Int) (vars : Nat → Place) : List (Nat × Bytes) → Nat → Place
  | [] => vars
  | (i, msg) :: evs => run hash (fun j => if j = i then logged hash msg (vars i) else vars j) evs

/-- `SQLite::commit` in thread `t`, SQLite.cpp:1097-1098, 1116, 1136-1137, 1220-1221: what the handle has afterwards.
`evs`: what is logged, by any thread, from the reset of the variables until they are copied. -/
def commit (hash : Bytes → Int) (vars : Nat → Place) (t : Nat) (evs : List (Nat × Bytes)) (ok : Bool) : Place :=
  let p := run hash (fun j => if j = t then {} else vars j) evs t
  if ok then {} else p

/-- The lock of the next attempt, BedrockServer.cpp:805-815; `lockable`: `shouldLockCommitPageOnConflict` of the command's plugin. -/
def next (enabled : Bool) (lockable : Bytes → Bool) (cur : Int) (p : Place) : Int :=
  if enabled then
    if (b!"journal").isPrefixOf p.loc then cur else if lockable p.loc then p.ident else cur
  else cur

/-- The locks of the attempts of a command, given where each failed, BedrockServer.cpp:626, 687. -/
def locks (enabled : Bool) (lockable : Bytes → Bool) (cur : Int) : List Place → List Int
  | [] => [cur]
  | p :: ps => cur :: locks enabled lockable (next enabled lockable cur p) ps

end Bedrock.Conflict
