import Verif.Model.Attr

/-!
# The Query command: plugins/DB.cpp

What a Query request runs, what it shows, and what it says about an error.  SQLite is an arbitrary `Engine`: it splits a
text into statements, says of each whether it only reads, and runs it.  Not modelled: how SQLite renders a result in a
style; the limits of the regular expression engine; that the statements of a text are prepared a second time, one by one,
when they are run (here they are the same as the first time).  The check of UPDATE and DELETE is in `Bedrock.Attr`.
-/

namespace Bedrock.Query
open Bedrock Bedrock.Text Bedrock.Http

/-! ## Arguments: `parseSQLite3Args`, DB.cpp:201-350 -/

/-- The variables of the loop, DB.cpp:206-209. -/
structure Tok where
  quote : Option UInt8 := none
  escaped : Bool := false
  cur : Bytes := []
  out : List Bytes := []
  deriving DecidableEq, Repr

/-- DB.cpp:210-247. -/
def Tok.step (t : Tok) (c : UInt8) : Tok :=
  if t.escaped then { t with cur := t.cur ++ [c], escaped := false }
  else match t.quote with
    | some q => if c = q then { t with quote := none } else { t with cur := t.cur ++ [c] }
    | none =>
      if isSpace c then
        if t.cur ≠ [] then { t with out := t.out ++ [t.cur], cur := [] } else t
      else if c = 39 ∨ c = 34 then { t with quote := some c }
      else if c = 92 then { t with escaped := true }
      else { t with cur := t.cur ++ [c] }

/-- The arguments, DB.cpp:203-253. -/
def split (s : Bytes) : List Bytes :=
  let t := s.foldl Tok.step {}
  if t.cur ≠ [] then t.out ++ [t.cur] else t.out

/-- `QRF_STYLE_*`, qrf.h: those that arguments can ask for. -/
inductive Style where
  | list | box | column | csv | html | explain | eqp | json | line | markdown | quote | table | off
  deriving DecidableEq, Repr

/-- `QRF_SW_*`. -/
inductive Switch where
  | auto | off | on
  deriving DecidableEq, Repr

/-- The fields of `sqlite3_qrf_spec` that are not constant, DB.cpp:255-285. -/
structure Look where
  style : Style := .list
  titles : Switch := .on
  sep : Option Bytes := none
  null : Option Bytes := none
  deriving DecidableEq, Repr

/-- `-name` or `--name`. -/
def opt (name : String) (a : Bytes) : Bool := a == 45 :: str name || a == 45 :: 45 :: str name

/-- What an argument asks for where a name is expected, DB.cpp:302-345. -/
inductive Wish where
  | style (s : Style)
  | titles (w : Switch)
  /-- the next argument is a value: `previous` -/
  | value
  | nothing
  deriving DecidableEq, Repr

def wish (a : Bytes) : Wish :=
  if opt "ascii" a then .nothing
  else if opt "box" a then .style .box
  else if opt "column" a then .style .column
  else if opt "csv" a then .style .csv
  else if opt "header" a then .titles .on
  else if opt "noheader" a then .titles .off
  else if opt "html" a then .style .html
  else if opt "explain" a then .style .explain
  else if opt "eqp" a || opt "explainqueryplan" a then .style .eqp
  else if opt "json" a then .style .json
  else if opt "line" a then .style .line
  else if opt "list" a then .style .list
  else if opt "markdown" a then .style .markdown
  else if opt "nullvalue" a then .value
  else if opt "quote" a then .style .quote
  else if opt "separator" a then .value
  else if opt "table" a then .style .table
  else .nothing

/-- The second component is `previous`. -/
def Look.name (l : Look) (a : Bytes) : Look × Bytes :=
  match wish a with
  | .style s => ({ l with style := s }, [])
  | .titles w => ({ l with titles := w }, [])
  | .value => (l, a)
  | .nothing => (l, [])

/-- The loop over the arguments, DB.cpp:287-346. -/
def Look.arg (s : Look × Bytes) (a : Bytes) : Look × Bytes :=
  if s.2 ≠ [] then
    if opt "nullvalue" s.2 then ({ s.1 with null := some a }, [])
    else if opt "separator" s.2 then ({ s.1 with sep := some a }, [])
    else (s.1, [])
  else s.1.name a

/-- `parseSQLite3Args`. -/
def parseArgs (s : Bytes) : Look := ((split s).foldl Look.arg ({}, [])).1

/-! ## Where the error is: `generateErrorContextMessage`, DB.cpp:352-401 -/

/-- `(c & 0xc0) == 0x80` -/
def isCont (c : UInt8) : Bool := c &&& 0xc0 == 0x80

/-- The loop that moves the window forward, DB.cpp:359-367, on what is left of the query; `none`: it reads behind the
terminating NUL. -/
def window (rest : Bytes) (pos : Nat) (err : Int) : Option (Nat × Int) :=
  if 50 < err then
    match rest with
    | [] => none
    | _ :: t => window (t.dropWhile isCont) (pos + 1 + (t.takeWhile isCont).length) (err - 1 - (t.takeWhile isCont).length)
  else some (pos, err)
termination_by rest.length
decreasing_by
  have := (List.dropWhile_sublist (p := isCont) (l := t)).length_le
  simp only [List.length_cons]
  omega

/-- The part of the query that is shown, DB.cpp:369-384, without the replacement of white space. -/
def shown (q : Bytes) (pos : Nat) : Bytes :=
  if 78 < (q.drop pos).length then (((q.drop pos).take 78).reverse.dropWhile isCont).reverse else q.drop pos

/-- White space becomes blanks, DB.cpp:380-384. -/
def flat (s : Bytes) : Bytes := s.map (fun c => if isSpace c then 32 else c)

/-- The line with the mark, DB.cpp:388-398. -/
def mark (err : Int) : Bytes :=
  if err < 25 then List.replicate err.toNat 32 ++ str "^--- error here"
  else List.replicate (err - 14).toNat 32 ++ str "error here ---^"

def errorContext (q msg : Bytes) (off : Int) : Option Bytes :=
  if off < 0 then some msg
  else (window q 0 off).map (fun w => msg ++ [10] ++ (flat (shown q w.1) ++ [10] ++ mark w.2) ++ [10])

/-! ## Requests -/

/-- The rows of a statement: the names of the columns and the cells. -/
structure Rows (R : Type) where
  names : List Bytes
  rows : List R
  deriving DecidableEq, Repr

/-- Why a text cannot be prepared: the first statement that cannot starts at `start`, and SQLite says that the error is
`off` bytes into it (`sqlite3_error_offset`: -1 if it is nowhere in particular). -/
structure Fault where
  start : Nat
  off : Int
  msg : Bytes
  deriving DecidableEq, Repr

structure Engine (D S R : Type) where
  /-- `getPreparedStatements`, SQLite.cpp:1616-1643: the statements before the first that cannot be prepared, and that -/
  pieces : Bytes → List S × Option Fault
  /-- `sqlite3_stmt_readonly` -/
  readonly : S → Bool
  /-- what a statement returns, or the number of an error, and what it makes of the database -/
  exec : S → D → D × Except Nat (Rows R)

/-- `.schema`, alone or with the name of a table, DB.cpp:97-113: the name for `\s*\.schema\s+(.*?)\s*`, and nothing for
`\s*\.schema\s*`.  A dot in a regular expression is no newline. -/
def schemaOf (q : Bytes) : Option (Option Bytes) :=
  let s := q.dropWhile isSpace
  if sToLower (s.take 7) = str ".schema" then
    match s.drop 7 with
    | [] => some none
    | c :: r => if isSpace c then if 10 ∈ trim r then none else some (some (trim r)) else none
  else none

/-- The text that is run and the look of the result, DB.cpp:97-113. -/
def rewrite (q : Bytes) (l : Look) : Bytes × Look :=
  match schemaOf q with
  | some (some name) =>
    (str "SELECT sql FROM sqlite_schema WHERE tbl_name LIKE " ++ sq name ++ str ";", { l with titles := .auto, style := .column })
  | some none =>
    (str "SELECT sql FROM sqlite_schema WHERE sql IS NOT NULL ORDER BY rowid;", { l with titles := .auto, style := .column })
  | none => (q, l)

/-- The look that the headers ask for, DB.cpp:69-95. -/
def lookOf (m : Msg) : Look :=
  let l : Look := match m.table.find (str "SQLiteArgs") with
    | some a => parseArgs a
    | none => match m.table.find (str "ReadDBFlags") with
      | some a => parseArgs a
      | none => parseArgs []
  let l := if (m.table.find (str "MYSQLFlags")).isSome then { l with titles := .off, sep := some [0x1e], null := some [10] } else l
  if (m.table.find (str "SuppressResult")).isSome then { l with style := .off } else l

inductive Answer (R : Type) where
  /-- `402 Missing query` -/
  | missing
  /-- `502 Query Missing Semicolon` -/
  | semicolon
  /-- `402 Bad query`, with an explanation; `none`: undefined behaviour while it is written -/
  | bad (content : Option Bytes)
  /-- `402 Bad query`, when running -/
  | failed
  /-- to be run by `process` -/
  | write
  /-- the rows as JSON -/
  | json (r : Rows R)
  /-- the rows, if any, as SQLite shows them with this look -/
  | text (l : Look) (r : Option (Rows R))
  deriving DecidableEq, Repr

variable {D S R : Type}

/-- `SQuery` for a result, libstuff.cpp:2857-3045: the rows of all the statements are appended, under the names of the
last. -/
def runAll (E : Engine D S R) : List S → Rows R → D → D × Except Nat (Rows R)
  | [], acc, d => (d, .ok acc)
  | s :: ss, acc, d =>
    match E.exec s d with
    | (d', .ok r) => runAll E ss ⟨r.names, acc.rows ++ r.rows⟩ d'
    | (d', .error e) => (d', .error e)

/-- `SQuery` for a formatted result, libstuff.cpp:2947-2957: it returns after the first statement. -/
def runText (E : Engine D S R) : List S → D → D × Except Nat (Option (Rows R))
  | [], d => (d, .ok none)
  | s :: _, d =>
    match E.exec s d with
    | (d', .ok r) => (d', .ok (some r))
    | (d', .error e) => (d', .error e)

/-- `BedrockPlugin::MAX_SIZE_QUERY`, BedrockPlugin.h:11. -/
def maxQuery : Nat := 1024 * 1024

/-- `BedrockDBCommand::peek`, DB.cpp:63-165. -/
def peek (E : Engine D S R) (m : Msg) (d : D) : D × Answer R :=
  let q := Attr.queryOf m
  if q.length < 1 ∨ maxQuery < q.length then (d, .missing)
  else
    let (q, l) := rewrite q (lookOf m)
    if q.getLast? ≠ some 59 then (d, .semicolon)
    else
      let p := E.pieces q
      match p.2 with
      | some f => (d, .bad (errorContext q f.msg f.off))
      | none =>
        if p.1.any (fun s => !E.readonly s) then (d, .write)
        else if sIEquals (m.table.get (str "Format")) (str "json") then
          match runAll E p.1 ⟨[], []⟩ d with
          | (d', .ok r) => (d', .json r)
          | (d', .error _) => (d', .failed)
        else
          match runText E p.1 d with
          | (d', .ok r) => (d', .text l r)
          | (d', .error _) => (d', .failed)

/-- `getCommand`, DB.cpp:48-54: is the request for this plugin?  `getVerb`, SData.cpp:107-110. -/
def isQuery (m : Msg) : Bool :=
  (str "query:").isPrefixOf (sToLower m.methodLine) || sIEquals (m.methodLine.takeWhile (· ≠ 32)) (str "Query")

/-- The header with the number of the last row inserted, DB.cpp:193-196. -/
def givesRowId (q : Bytes) : Bool := (str "INSERT ").isPrefixOf (sToUpper q)

end Bedrock.Query
