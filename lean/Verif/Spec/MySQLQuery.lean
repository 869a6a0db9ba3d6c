import Verif.Model.Search
import Verif.Spec.Text

/-!
# What a MySQL client's SQL is to become

Independent of the port's code: reading of the SQL text that is passed on, and which statements are to be left alone.
-/

namespace Bedrock.MySQL.Spec
open Bedrock Bedrock.Text

/-- One character of SQL text outside or inside (`some q`) quotes: a doubled quote leaves and enters again. -/
def quoted (st : Option UInt8) (c : UInt8) : Option UInt8 :=
  match st with
  | none => if c = 39 ∨ c = 34 ∨ c = 96 then some c else none
  | some q => if c = q then none else some q

/-- The statements that a text ends by a semicolon outside of quotes, and whether the text ends inside quotes. -/
def statements : Option UInt8 → Bytes → Nat × Option UInt8
  | st, [] => (0, st)
  | st, c :: s =>
    let r := statements (quoted st c) s
    ((if st = none ∧ c = 59 then 1 else 0) + r.1, r.2)

/-- A text made of the given parts with one string literal between each two: the values of the literals. -/
def literals : List Bytes → Bytes → Option (List Bytes)
  | [], s => if s = [] then some [] else none
  | [p], s => if s = p then some [] else none
  | p :: ps, s =>
    if p.isPrefixOf s then
      match Text.Spec.sqlLiteral (s.drop p.length) with
      | some (v, rest) => (literals ps rest).map (v :: ·)
      | none => none
    else none

/-- A text that the port has no reason to treat in a special way. -/
structure Plain (q : Bytes) : Prop where
  /-- no mention of MySQL's own tables and no request for keys, anywhere -/
  mentions : ∀ w ∈ [str "INFORMATION_SCHEMA", str "SHOW KEYS FROM"], ¬ w <:+: sToUpper q
  /-- not a statement for MySQL itself -/
  starts : ∀ w ∈ [str "SET ", str "USE ", str "SHOW VARIABLES", str "SHOW DATABASES", str "SHOW FULL TABLES",
    str "SHOW /*!50002 FULL*/ TABLES", str "ROLLBACK;", str "@@"], ¬ w <+: sToUpper q
  /-- not a question about the server -/
  asks : str "SELECT" <+: sToUpper q → ∀ w ∈ [str "@@", str "VERSION(", str "CONNECTION_ID(", str "DATABASE();", str "$$;",
    str "* FROM (SELECT DATABASE() AS DATABASE_NAME) A WHERE A.DATABASE_NAME IS NOT NULL;"],
    ¬ w <+: ((sToUpper q).drop 6).dropWhile isSpace

/-- `SELECT name()` in capitals, with an alias or without, and with a semicolon or without. -/
def CallText (name : Bytes) (a : Option Bytes) (u : Bytes) : Prop :=
  ∃ s1 s2 s3 stop, s1 ≠ [] ∧ (∀ c ∈ s1 ++ s2 ++ s3, Text.isSpace c = true) ∧ stop ∈ [[], [(59 : UInt8)]] ∧
    match a with
    | none => u = str "SELECT" ++ s1 ++ (name ++ str "(") ++ s2 ++ str ")" ++ s3 ++ stop
    | some w => ∃ s4 s5, s4 ≠ [] ∧ s5 ≠ [] ∧ (∀ c ∈ s4 ++ s5, Text.isSpace c = true) ∧ w ≠ [] ∧
        (∀ c ∈ w, (48 ≤ c ∧ c ≤ 57) ∨ (65 ≤ c ∧ c ≤ 90) ∨ (97 ≤ c ∧ c ≤ 122) ∨ c = 95) ∧
        u = str "SELECT" ++ s1 ++ (name ++ str "(") ++ s2 ++ str ")" ++ s4 ++ str "AS" ++ s5 ++ w ++ s3 ++ stop

end Bedrock.MySQL.Spec
