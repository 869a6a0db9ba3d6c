import Verif.Model.Edit

/-!
# Checking the schema: `SQLite::verifyTable`, `verifyIndex`, `addColumn`

SQLite is an arbitrary `Engine`: a database of some kind, its list of `sqlite_master`, and what writing a text makes of it.
Reading `sqlite_master` never fails here (in the code a failure ends the process).
-/

namespace Bedrock.Schema
open Bedrock Bedrock.Text Bedrock.Edit

/-- A row of `sqlite_master`; `none`: NULL, as for the indexes that SQLite makes for itself. -/
structure Entry where
  type : Bytes
  name : Bytes
  table : Bytes
  sql : Option Bytes
  deriving DecidableEq, Repr

structure Engine (D : Type) where
  master : D → List Entry
  /-- `SQLite::write` of a text; `none`: it returns false -/
  exec : Bytes → D → Option D

/-- What a call makes of the database and what it returns. -/
inductive Outcome (D α : Type) where
  | done (d : D) (r : α)
  /-- a failed `SASSERT`: the process ends -/
  | abort
  /-- a text built from a name with a quote in it says something else -/
  | injected
  deriving DecidableEq, Repr

variable {D : Type}

/-- `SELECT sql FROM sqlite_master WHERE type=… AND tbl_name=…`: the first row; NULL is read as an empty text. -/
def sqlOf (l : List Entry) (type table : Bytes) : Option Bytes :=
  (l.find? (fun e => e.type == type && e.table == table)).map (fun e => e.sql.getD [])

/-- `SELECT sql FROM sqlite_master WHERE type='index' AND tbl_name=… AND name=…`. -/
def indexSql (l : List Entry) (table name : Bytes) : Option Bytes :=
  (l.find? (fun e => e.type == str "index" && (e.table == table && e.name == name))).map (fun e => e.sql.getD [])

/-- `SQLite::verifyTable`, SQLite.cpp:582-614: what it returns and `created`. -/
def verifyTable (E : Engine D) (name sql type : Bytes) (d : D) : Outcome D (Bool × Bool) :=
  if endsWith sql [59] then .abort
  else match sqlOf (E.master d) type name with
    | none => match E.exec (collapse sql ++ [59]) d with
      | some d' => .done d' (true, true)
      | none => .abort
    | some s => .done d (strip (collapse s) [32] false == strip (collapse sql) [32] false, false)

/-- `createSQL`, SQLite.cpp:622. -/
def createIndex (name table definition : Bytes) (unique : Bool) : Bytes :=
  str "CREATE" ++ (if unique then str " UNIQUE " else str " ") ++ str "INDEX " ++ name ++ str " ON " ++ table ++ [32] ++ definition

/-- `SQLite::verifyIndex`, SQLite.cpp:616-636. -/
def verifyIndex (E : Engine D) (name table definition : Bytes) (unique create : Bool) (d : D) : Outcome D Bool :=
  match indexSql (E.master d) table name with
  | none =>
    if !create then .done d false
    else match E.exec (createIndex name table definition unique ++ [59]) d with
      | some d' => .done d' true
      | none => .abort
  | some s => .done d (sIEquals (replace (createIndex name table definition unique) [32] []) (replace s [32] []))

/-- `SQLite::addColumn`, SQLite.cpp:638-652. -/
def addColumn (E : Engine D) (table column type : Bytes) (d : D) : Outcome D Bool :=
  if 39 ∈ table then .injected
  else
    let sql := collapse ((sqlOf (E.master d) (str "table") table).getD [])
    if !sContains sql ([32] ++ column ++ [32]) then
      match E.exec (str "ALTER TABLE " ++ table ++ str " ADD COLUMN " ++ column ++ [32] ++ type ++ [59]) d with
      | some d' => .done d' true
      | none => .abort
    else .done d false

/-- The loop of `BedrockPlugin_Cache::upgradeDatabase`, Cache.cpp:132-139, with a bound on its rounds; `none`: more rounds
are needed. -/
def rebuild (E : Engine D) (name sql : Bytes) : Nat → D → Option (Outcome D Unit)
  | 0, _ => none
  | n + 1, d => match verifyTable E name sql (str "table") d with
    | .done d' (true, _) => some (.done d' ())
    | .done d' (false, _) => match E.exec (str "DROP TABLE " ++ name ++ [59]) d' with
      | some d'' => rebuild E name sql n d''
      | none => some .abort
    | .abort => some .abort
    | .injected => some .injected

end Bedrock.Schema
