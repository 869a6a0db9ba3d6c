import Verif.Model.Http

/-! # What the conflict report counts

`BedrockConflictManager` (BedrockConflictManager.cpp/.h), the tables a transaction touched as `SQLite::_tablesUsed` has them
(SQLite.cpp:57-60, 565, 1443-1445), and where the two meet (BedrockServer.cpp:791-796, 1697-1700).

Simplified: the two counters are natural numbers (the code: `size_t`).  A statement is only its calls of the authorizer.
A query answered from the handle's cache makes no call; the cache is emptied by `BEGIN` (SQLite.cpp:564), so the tables of such
a query were noted when it first ran. -/

namespace Bedrock.Report
open Bedrock Text Http

/-- `map::find` and assignment or `emplace` in a `map<string, V>`. -/
def update {V : Type} (k : Bytes) (f : Option V → V) : List (Bytes × V) → List (Bytes × V)
  | [] => [(k, f none)]
  | (k', v) :: l =>
    if k = k' then (k', f (some v)) :: l
    else if lexLt k k' then (k, f none) :: (k', v) :: l
    else (k', v) :: update k f l

/-- `set<string>::insert`. -/
def insertSet (x : Bytes) : List Bytes → List Bytes
  | [] => [x]
  | y :: l => if x = y then y :: l else if lexLt x y then x :: y :: l else y :: insertSet x l

/-- `BedrockConflictManagerCommandInfo`, BedrockConflictManager.h:10-14. -/
structure Info where
  count : Nat := 0
  tableUseCounts : List (Bytes × Nat) := []
  deriving DecidableEq, Repr

/-- `_commandInfo`, BedrockConflictManager.h:24. -/
abbrev Mgr := List (Bytes × Info)

/-- The two `continue`s, BedrockConflictManager.cpp:25-31. -/
def skipped (table : Bytes) : Bool := (str "journal").isPrefixOf table || table == str "json_each"

/-- One round of the loop over the tables, BedrockConflictManager.cpp:23-42. -/
def recordTable (counts : List (Bytes × Nat)) (table : Bytes) : List (Bytes × Nat) :=
  if skipped table then counts else update table (fun n => n.getD 0 + 1) counts

/-- `recordTables`, BedrockConflictManager.cpp:8-44.  The mutex makes it one step. -/
def recordTables (m : Mgr) (name : Bytes) (tables : List Bytes) : Mgr :=
  update name (fun i => { count := (i.getD {}).count + 1
                          tableUseCounts := tables.foldl recordTable (i.getD {}).tableUseCounts }) m

/-- The lines of one table, BedrockConflictManager.cpp:57-61. -/
def tableLine (e : Bytes × Nat) : Bytes := str "    " ++ e.1 ++ str ": " ++ natDec e.2 ++ [10]

/-- The lines of one command, BedrockConflictManager.cpp:51-62. -/
def block (e : Bytes × Info) : Bytes :=
  str "Command: " ++ e.1 ++ [10] ++ (str "Total Count: " ++ natDec e.2.count ++ [10]) ++ (str "Table usage" ++ [10]) ++
  e.2.tableUseCounts.flatMap tableLine ++ [10]

/-- `generateReport`, BedrockConflictManager.cpp:45-66. -/
def report (m : Mgr) : Bytes := m.flatMap block

/-- What the authorizer is called for, as far as SQLite.cpp:1443 distinguishes it. -/
inductive Act where
  | insert | delete | read | update
  /-- any other code: a function, a pragma, the schema, … -/
  | other
  deriving DecidableEq, Repr

/-- The codes of SQLite.cpp:1443. -/
def Act.table : Act → Bool
  | .other => false
  | _ => true

/-- A thread at its handle.  Threads are numbers; each has a handle of its own. -/
inductive Op where
  /-- `beginTransaction` -/
  | begin (w : Nat)
  /-- a call of the authorizer; `rewritten`: the handler took the statement over (SQLite.cpp:1437-1440); `denied`: what the
  rest of the function answers -/
  | authorize (w : Nat) (a : Act) (table : Bytes) (rewritten denied : Bool)
  | rollback (w : Nat)
  /-- a worker thread commits for the command with this method line; `ok`: successfully -/
  | commit (w : Nat) (name : Bytes) (ok : Bool)
  /-- the sync thread commits a command, SQLiteNode.cpp:1811 -/
  | syncCommit (w : Nat) (name : Bytes)
  deriving DecidableEq, Repr

structure S where
  /-- `_tablesUsed` of each handle -/
  used : Nat → List Bytes := fun _ => []
  mgr : Mgr := []

def set (f : Nat → List Bytes) (w : Nat) (x : List Bytes) : Nat → List Bytes := fun v => if v = w then x else f v

/-- One step: SQLite.cpp:565; 1437-1445; `rollback` leaves the set (SQLite.cpp:1253-1302); BedrockServer.cpp:791-796; the sync
thread records nothing. -/
def step (s : S) : Op → S
  | .begin w => { s with used := set s.used w [] }
  | .authorize w a table rewritten _ =>
    if rewritten then s
    else if a.table then { s with used := set s.used w (insertSet table (s.used w)) }
    else s
  | .rollback _ => s
  | .commit w name ok => if ok then { s with mgr := recordTables s.mgr name (s.used w) } else s
  | .syncCommit _ _ => s

def run (ops : List Op) : S := ops.foldl step {}

end Bedrock.Report
