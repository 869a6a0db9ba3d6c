import Verif.Model.MySQL
import Verif.Model.MySQLVars
import Verif.Model.Results
import Verif.Model.Address
import Verif.Model.Https
import Verif.Model.Deadline

/-!
# What the MySQL port makes of a query

plugins/MySQL.cpp:14-118 (`MySQLUtils`), 399-672 (the branches of `onPortRecv`) and 687-710 (`onPortRequestComplete`).
The regular expressions are given by what they match; PCRE's limit on the depth of backtracking is left out, none of
these patterns nests repetitions.
-/

namespace Bedrock.MySQL
open Bedrock Bedrock.Text

/-- `\w` of a regular expression: a letter, a digit or an underscore. -/
def isWord (c : UInt8) : Bool :=
  (48 ≤ c && c ≤ 57) || (65 ≤ c && c ≤ 90) || (97 ≤ c && c ≤ 122) || c == 95

/-- `^(?:(?:SELECT\s+)?@@(?:\w+\.)?|SHOW VARIABLES LIKE ')(\w+).*$` of the whole text, case ignored, MySQL.cpp:402-404.
A dot is no newline.  The optional `\w+\.` changes only which part is the group. -/
def isVariable (q : Bytes) : Bool :=
  let u := sToUpper q
  let named (s : Bytes) : Bool := isWord (s.headD 0) && !s.contains 10
  let s := if (str "SELECT").isPrefixOf u && isSpace ((u.drop 6).headD 0) then (u.drop 6).dropWhile isSpace else u
  ((str "@@").isPrefixOf s && named (s.drop 2)) ||
    ((str "SHOW VARIABLES LIKE '").isPrefixOf u && named (u.drop 21))

/-- The rows for a variable, MySQL.cpp:405-418.  `varName` is `matches[0]`, which is the whole text that matched and not
the group (libstuff.cpp:3244-3258). -/
def variableRows (version varName : Bytes) : List (List Bytes) :=
  match (variables version).find? (fun v => sIEquals v.1 varName) with
  | some v => [[v.2]]
  | none => []

/-- `(?:\s+AS\s+(\w+))?\s*;?$`, MySQL.cpp:18, 24: outside, no match; inside, no group. -/
def asAlias (s : Bytes) : Option (Option Bytes) :=
  let t := s.dropWhile isSpace
  if t = [] ∨ t = [59] then some none
  else if isSpace (s.headD 0) && (str "AS").isPrefixOf t && isSpace ((t.drop 2).headD 0) then
    let w := (t.drop 2).dropWhile isSpace
    let rest := (w.dropWhile isWord).dropWhile isSpace
    if w.takeWhile isWord ≠ [] ∧ (rest = [] ∨ rest = [59]) then some (some (w.takeWhile isWord)) else none
  else none

/-- `parseVersionQuery` and `parseConnectionIdQuery`, MySQL.cpp:15-25, by the name of the function asked for. -/
def parseCall (name q : Bytes) : Option (Option Bytes) :=
  let u := sToUpper q
  if (str "SELECT").isPrefixOf u && isSpace ((u.drop 6).headD 0) then
    let s := (u.drop 6).dropWhile isSpace
    if (name ++ str "(").isPrefixOf s then
      match (s.drop (name.length + 1)).dropWhile isSpace with
      | 41 :: r => asAlias r
      | _ => none
    else none
  else none

/-- `extractTableNameFromColumnsQuery`, MySQL.cpp:27-52. -/
def columnsTable (q : Bytes) : Bytes :=
  match findSub (str "TABLE_NAME") (sToUpper q) with
  | none => []
  | some pos =>
    match findSub (str "=") ((sToUpper q).drop pos) with
    | none => []
    | some e =>
      match (q.drop (pos + e)).dropWhile (fun c => c != 39 && c != 34) with
      | [] => []
      | c :: body => if c ∈ body then body.takeWhile (· != c) else []

/-- `extractTableNameFromShowKeysQuery`, MySQL.cpp:74-103. -/
def keysTable (q : Bytes) : Bytes :=
  match findSub (str "FROM") (sToUpper q) with
  | none => []
  | some i =>
    match (q.drop (i + 4)).dropWhile (fun c => c == 32 || c == 9) with
    | [] => []
    | c :: s =>
      if c = 96 then (if 96 ∈ s then s.takeWhile (· != 96) else [])
      else (c :: s).takeWhile (fun c => c != 32 && c != 9 && c != 59)

/-- `isForeignKeyConstraintQuery`, MySQL.cpp:105-110. -/
def isForeign (q : Bytes) : Bool :=
  sContains (sToUpper q) (str "INFORMATION_SCHEMA.KEY_COLUMN_USAGE") &&
    sContains (sToUpper q) (str "INFORMATION_SCHEMA.REFERENTIAL_CONSTRAINTS")

/-- `\s*=\s*['"]([^'"]+)['"]` at the start of a text: the group. -/
def equalsName (s : Bytes) : Option Bytes :=
  match s.dropWhile isSpace with
  | 61 :: s =>
    match s.dropWhile isSpace with
    | [] => none
    | c :: body =>
      let name := body.takeWhile (fun c => c != 39 && c != 34)
      if (c = 39 ∨ c = 34) ∧ name ≠ [] ∧ name.length < body.length then some name else none
  | _ => none

/-- `extractTableNameFromForeignKeyQuery`, MySQL.cpp:112-120: the first place where the pattern fits.  The optional
`\w+\.` before it never decides which place is first. -/
def foreignTable : Bytes → Bytes
  | [] => []
  | c :: s =>
    if (str "TABLE_NAME").isPrefixOf (sToUpper (c :: s)) then
      match equalsName ((c :: s).drop 10) with
      | some name => name
      | none => foreignTable s
    else foreignTable s

/-! ## The translations -/

/-- MySQL.cpp:455-463. -/
def fullTablesSQL : Bytes := (b!"SELECT name as Tables_in_main, CASE type WHEN 'table' THEN 'BASE TABLE' " ++
  b!"WHEN 'view' THEN 'VIEW' END as Table_type FROM sqlite_master WHERE type IN ('table', 'view');")

/-- MySQL.cpp:478-486. -/
def odbcTablesSQL : Bytes := (b!"SELECT name as TABLE_NAME, '' as TABLE_COMMENT, UPPER(type) as TABLE_TYPE, " ++
  b!"'main' as TABLE_SCHEMA FROM sqlite_master WHERE type IN ('table', 'view') ORDER BY TABLE_SCHEMA, TABLE_NAME;")

/-- MySQL.cpp:495-499. -/
def tablesSQL : Bytes := b!"SELECT name as name FROM sqlite_master WHERE type = 'table' ORDER BY name;"

/-- MySQL.cpp:508-512. -/
def viewsSQL : Bytes := b!"SELECT name as name FROM sqlite_master WHERE type = 'view' ORDER BY name;"

/-- A text with the same literal in every gap. -/
def fill (lit : Bytes) : List Bytes → Bytes
  | [] => []
  | [p] => p
  | p :: ps => p ++ lit ++ fill lit ps

/-- MySQL.cpp:527-539. -/
def columnsParts : List Bytes := [b!"SELECT ",
  (b!" as table_name, name as column_name, type as column_type, type as data_type, " ++
    b!"CASE WHEN \"notnull\" = 0 THEN 'YES' ELSE 'NO' END as is_nullable, dflt_value as column_default, " ++
    b!"(cid + 1) as ordinal_position, NULL as column_comment, " ++
    b!"CASE WHEN pk = 1 THEN 'auto_increment' ELSE NULL END as extra FROM pragma_table_info("),
  b!") ORDER BY cid;"]

/-- MySQL.cpp:608-625. -/
def keysParts : List Bytes := [b!"SELECT ",
  (b!" as Table_name, 0 as Non_unique, 'PRIMARY' as Key_name, (cid + 1) as Seq_in_index, name as Column_name, " ++
    b!"'A' as Collation, NULL as Cardinality, NULL as Sub_part, NULL as Packed, " ++
    b!"CASE WHEN \"notnull\" = 1 THEN '' ELSE 'YES' END as Null_col, 'BTREE' as Index_type, '' as Comment, " ++
    b!"'' as Index_comment FROM pragma_table_info("),
  b!") WHERE pk = 1 ORDER BY cid;"]

/-- MySQL.cpp:647-660. -/
def foreignParts : List Bytes := [
  (b!"SELECT 'fk_' || \"table\" || '_' || \"from\" as constraint_name, \"from\" as column_name, " ++
    b!"\"table\" as referenced_table_name, 'FOREIGN' as key_type, \"table\" as referenced_table, " ++
    b!"\"to\" as referenced_column, CASE WHEN on_update = 'NO ACTION' THEN 'RESTRICT' ELSE on_update END as on_update, " ++
    b!"CASE WHEN on_delete = 'NO ACTION' THEN 'RESTRICT' ELSE on_delete END as on_delete, " ++
    b!"'fk_' || \"table\" || '_' || \"from\" as rc_constraint_name, (seq + 1) as ordinal_position " ++
    b!"FROM pragma_foreign_key_list("),
  b!") ORDER BY \"table\", seq;"]

/-- The question of the ODBC connector, MySQL.cpp:464-468. -/
def odbcQuestion : Bytes := (b!"SELECT TABLE_NAME,TABLE_COMMENT,IF(TABLE_TYPE='BASE TABLE', 'TABLE', " ++
  b!"TABLE_TYPE),TABLE_SCHEMA FROM INFORMATION_SCHEMA.TABLES WHERE TABLE_SCHEMA=DATABASE() " ++
  b!"AND ( TABLE_TYPE='BASE TABLE' OR TABLE_TYPE='VIEW' ) AND TABLE_NAME LIKE '%' ORDER BY " ++
  b!"TABLE_SCHEMA, TABLE_NAME;")

/-- A translation with the name of a table, or the error if there is none, MySQL.cpp:518-545, 600-632, 637-667. -/
def named (seq : UInt8) (table : Bytes) (parts : List Bytes) (what : String) : Action :=
  if table ≠ [] then .request seq (fill (sq table) parts)
  else .answer (serialize (errPacket seq.toNat 1046 (str ("Could not extract table name from " ++ what ++ " query"))))

/-- An answer with rows, sent at once. -/
def rows (seq : UInt8) (headers : List Bytes) (rows : List (List Bytes)) : Option Action :=
  some (.answer (queryResponse seq.toNat headers rows))

/-- `OK`, sent at once. -/
def okay (seq : UInt8) : Option Action := some (.answer (serialize (okPacket seq.toNat)))

/-- The queries with an answer or a translation of their own, MySQL.cpp:401-667, in the order of the code. -/
def special (version : Bytes) (seq : UInt8) (q : Bytes) : Option Action :=
  if isVariable q then rows seq [q] (variableRows version q)
  else if sIEquals q (str "SHOW VARIABLES;") then
    rows seq [str "Variable Name", str "Value"] ((variables version).map fun v => [v.1, v.2])
  else if sIEquals q (str "SHOW DATABASES;") ∨ sIEquals (sToUpper q) (str "SELECT DATABASE();") ∨
      sIEquals (sToUpper q) (str "SELECT * FROM (SELECT DATABASE() AS DATABASE_NAME) A WHERE A.DATABASE_NAME IS NOT NULL;") then
    rows seq [str "Database"] [[str "main"]]
  else if sIEquals (sToUpper q) (str "SHOW /*!50002 FULL*/ TABLES;") ∨ sIEquals (sToUpper q) (str "SHOW FULL TABLES;") then
    some (.request seq fullTablesSQL)
  else if sIEquals (sToUpper q) odbcQuestion then some (.request seq odbcTablesSQL)
  else if sContains (sToUpper q) (str "INFORMATION_SCHEMA.TABLES") then some (.request seq tablesSQL)
  else if sContains (sToUpper q) (str "INFORMATION_SCHEMA.VIEWS") then some (.request seq viewsSQL)
  else if sContains (sToUpper q) (str "INFORMATION_SCHEMA.COLUMNS") then some (named seq (columnsTable q) columnsParts "columns")
  else if sContains q (str "information_schema") then rows seq [] []
  else if (str "SET ").isPrefixOf (sToUpper q) ∨ (str "USE ").isPrefixOf (sToUpper q) ∨ sIEquals q (str "ROLLBACK;") then okay seq
  else if sIEquals (sToUpper q) (str "SELECT $$;") then okay seq
  else match parseCall (str "VERSION") q with
    | some alias => rows seq [sToLower (alias.getD (str "version()"))] [[mysqlVersion]]
    | none => match parseCall (str "CONNECTION_ID") q with
      | some alias => rows seq [sToLower (alias.getD (str "connection_id()"))] [[str "1"]]
      | none =>
        if sContains (sToUpper q) (str "SHOW KEYS FROM") then some (named seq (keysTable q) keysParts "SHOW KEYS")
        else if isForeign q then some (named seq (foreignTable q) foreignParts "foreign key")
        else none

/-! ## The answer to a request -/

/-- What `onPortRequestComplete` does. -/
inductive Sent where
  | bytes (b : Bytes)
  /-- `SASSERT`: the process ends -/
  | abort
  /-- a row that is no proper object; what is sent then is not modelled (see `Results.Read.unclear`) -/
  | unclear
  deriving DecidableEq, Repr

/-- The number a request carries.  `SToStr` of a `uint8_t` writes the byte as a character (libstuff.h:444-449,
MySQL.cpp:454 and others), and `calc` reads the character as a decimal number (SData.cpp:76-90). -/
def seqRead (seq : UInt8) : Nat := (Deadline.calcInt [seq]).toNat

/-- Conversion to `uint16_t`. -/
def toUInt16 (v : Int) : Nat := (v % 65536).toNat

/-- `onPortRequestComplete`, MySQL.cpp:687-710, for a request made by `onPortRecv` with the number `seq`. -/
def complete (seq : UInt8) (methodLine content error : Bytes) : Sent :=
  if Https.toInt methodLine = 200 then
    if content = [] then .bytes (serialize (okPacket (seqRead seq)))
    else match Results.deserialize content with
      | .done r => .bytes (queryResponse (seqRead seq) r.headers r.rows)
      | .refused => .abort
      | .abort => .abort
      | .unclear => .unclear
  else
    .bytes (serialize (errPacket (seqRead seq) (toUInt16 (strtoll (Address.sBefore methodLine [32])))
      (Address.sAfter methodLine [32] ++ [32] ++ error)))

end Bedrock.MySQL
