import Verif.Model.Text
import Verif.Model.Literal
import Verif.Model.DB

/-!
# Opening a database: SQLite.cpp:118-274

Which format it has (118-152), how long a lock is waited for (154-197) and which journals there are (199-274, with
`SQVerifyTable` and `SQVerifyTableExists`, libstuff.cpp:3134-3157).  `none`: `SASSERT` or `SERROR` end the process.  The schema
is `sqlite_master`, in order; its statements succeed, except that a table cannot be created if one of that name, in any case,
exists, nor a view without tables.
-/

namespace Bedrock.OpenDB
open Bedrock Bedrock.Text

/-! ## Format -/

/-- `validateDBFormat`, SQLite.cpp:118-152.  `file`: its contents, `none` if there is none or it cannot be read.  A file of less than
32 bytes is followed, in the buffer, by what was there before (`junk`). -/
def hctree (flag : Bool) (file : Option Bytes) (junk : Bytes) : Bool :=
  match file with
  | none | some [] => flag
  | some f =>
    let header := cstr ((f.take 32 ++ junk).take 31)
    if (b!"Hctree database version").isPrefixOf header then true
    else if (b!"SQLite format 3").isPrefixOf header then false
    else flag

/-! ## Waiting for the lock -/

inductive Opened where
  | open (seconds : Nat)
  /-- `exit(0)` -/
  | exit (seconds : Nat)
  /-- `SERROR` -/
  | failed (seconds : Nat)
deriving DecidableEq, Repr

/-- The loop of `initializeDB`, SQLite.cpp:168-191, from a number of seconds on.  `result`: what `sqlite3_open_v2` returns then;
`signal`: whether a signal to terminate has arrived by then; `fuel`: rounds to go, enough if `elapsed + 5 * fuel` is over 900. -/
def waitOpen (result : Nat → Nat) (signal : Nat → Bool) : Nat → Nat → Opened
  | 0, elapsed => .failed elapsed
  | fuel + 1, elapsed =>
    if result elapsed ≠ 5 ∨ 900 ≤ elapsed then if result elapsed = 0 then .open elapsed else .failed elapsed
    else if signal elapsed then .exit elapsed
    else waitOpen result signal fuel (elapsed + 5)

def openFile (result : Nat → Nat) (signal : Nat → Bool) : Opened := waitOpen result signal 181 0

/-! ## Journals -/

/-- A row of `sqlite_master`. -/
structure Entry where
  type : Bytes
  name : Bytes
  tbl : Bytes
  sql : Bytes
deriving DecidableEq, Repr

/-- `%04i` of a number that is not negative. -/
def pad4 (n : Nat) : Bytes := List.replicate (4 - (natDec n).length) 48 ++ natDec n

/-- The names of the journals in order, SQLite.cpp:207-213, 224-231: `journal`, `journal0000`, `journal0001`, … -/
def seq : Nat → Bytes
  | 0 => b!"journal"
  | n + 1 => (b!"journal") ++ pad4 n

/-- SQLite.cpp:214. -/
def createSql (name : Bytes) : Bytes := (b!"CREATE TABLE ") ++ name ++ (b!" ( id INTEGER PRIMARY KEY, query TEXT, hash TEXT )")

def tableE (name : Bytes) : Entry := ⟨b!"table", name, name, createSql name⟩

/-- `SQVerifyTable`, libstuff.cpp:3134-3150, for a journal. -/
def verifyTable (s : List Entry) (name : Bytes) : Option (List Entry) :=
  match s.find? (fun e => e.tbl == name) with
  | none => if s.any (fun e => sIEquals e.name name) then none else some (s ++ [tableE name])
  | some e => if e.sql = createSql name then some s else none

/-- The first loop, SQLite.cpp:206-217: the first `n` of the sequence. -/
def verifyAll (s : List Entry) : Nat → Option (List Entry)
  | 0 => some s
  | n + 1 => (verifyAll s n).bind fun s => verifyTable s (seq n)

/-- The second loop, SQLite.cpp:219-240: `_journalNames`, from the `i`-th of the sequence on.  `fuel`: rounds to go. -/
def names (s : List Entry) : Nat → Nat → List Bytes
  | 0, _ => []
  | fuel + 1, i => if s.any (fun e => e.tbl == seq i) then seq i :: names s fuel (i + 1) else []

def viewName : Bytes := b!"journalEntries"

/-- The loop over the names, SQLite.cpp:241-247. -/
def viewQuery (acc : Bytes) : List Bytes → Bytes
  | [] => acc
  | n :: l => viewQuery ((if acc ≠ [] then acc ++ (b!" UNION ALL ") else acc) ++ (b!"SELECT id, query, hash FROM ") ++ n) l

/-- SQLite.cpp:248. -/
def viewSql (l : List Bytes) : Bytes := (b!"CREATE VIEW journalEntries AS ") ++ viewQuery [] l

def viewE (l : List Bytes) : Entry := ⟨b!"view", viewName, viewName, viewSql l⟩

/-- The view, SQLite.cpp:251-272; the new one is created in the place where SQLite puts new entries, at the end. -/
def verifyView (s : List Entry) (l : List Bytes) : Option (List Entry) :=
  match s.filter (fun e => e.name == viewName) with
  | [] => if l = [] ∨ s.any (fun e => sIEquals e.name viewName) then none else some (s ++ [viewE l])
  | [e] =>
    if e.type ≠ (b!"view") then none
    else if e.sql = viewSql l then some s
    else if l = [] then none
    else some (s.filter (fun e => e.name != viewName) ++ [viewE l])
  | _ => none

/-- `initializeJournal`, SQLite.cpp:199-274. -/
def initJournal (min : Int) (s : List Entry) : Option (List Entry × List Bytes) :=
  if min < 10000 then
    (verifyAll s (min + 2).toNat).bind fun s =>
      let l := names s (s.length + 1) 0
      (verifyView s l).map fun s => (s, l)
  else none

/-- A database over time: it is opened with some number of journals, and a user changes the schema. -/
inductive Op where
  | start (min : Int)
  | create (e : Entry)
  | drop (tbl : Bytes)
deriving DecidableEq, Repr

/-- The schema, and the journals the last process that opened it uses. -/
def step (w : List Entry × List Bytes) : Op → Option (List Entry × List Bytes)
  | .start min => initJournal min w.1
  | .create e => some (w.1 ++ [e], w.2)
  | .drop t => some (w.1.filter (fun e => e.tbl != t), w.2)

def run (w : List Entry × List Bytes) : List Op → Option (List Entry × List Bytes)
  | [] => some w
  | op :: ops => (step w op).bind fun w => run w ops

end Bedrock.OpenDB
