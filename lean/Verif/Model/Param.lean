import Verif.Model.Base64
import Verif.Model.Http

/-!
# Bound parameters

libstuff/SQliteParameter.cpp: parameters of a query as they travel in the headers of a request, and
plugins/DB.cpp:37-46, where the receiver collects them.  `D` is the type of `double`; `fmt` is `%.17g` and `rd` is
`strtod`.
-/

namespace Bedrock.Param
open Bedrock Bedrock.Text Bedrock.Http

/-- `SQliteParameter`, SQliteParameter.h. -/
inductive Param (D : Type) where
  | null
  | int (v : Int)
  | double (d : D)
  | text (s : Bytes)
  | blob (s : Bytes)
  deriving DecidableEq, Repr

/-- `serialize`, SQliteParameter.cpp:47-69; `none`: an exception from `SEncodeBase64`. -/
def serialize {D : Type} (fmt : D → Bytes) : Param D → Option Bytes
  | .null => some [78]
  | .int v => some (73 :: intDec v)
  | .double d => some (68 :: fmt d)
  | .text s => (Base64.encode s).map (84 :: ·)
  | .blob s => (Base64.encode s).map (66 :: ·)

/-- `deserialize`, SQliteParameter.cpp:104-127. -/
def deserialize {D : Type} (rd : Bytes → D) : Bytes → Param D
  | [] => .null
  | c :: payload =>
    if c = 78 then .null
    else if c = 73 then .int (strtoll payload)
    else if c = 68 then .double (rd payload)
    else if c = 84 then .text (Base64.decode payload)
    else if c = 66 then .blob (Base64.decode payload)
    else .null

/-- The body of the loop of `uriEncodeParamName`, SQliteParameter.cpp:75-81. -/
def encodeNameByte (c : UInt8) : Bytes :=
  if c = 58 ∨ c = 64 ∨ c = 36 ∨ c = 35 then [35, hexDigit (c.toNat / 16), hexDigit (c.toNat % 16)] else [c]

/-- `uriEncodeParamName`, SQliteParameter.cpp:71-85. -/
def encodeName (n : Bytes) : Bytes := n.flatMap encodeNameByte

/-- `uriDecodeParamName`, SQliteParameter.cpp:87-102. -/
def decodeName : Bytes → Bytes
  | 35 :: a :: b :: t =>
    match hexVal a, hexVal b with
    | some x, some y => UInt8.ofNat (16 * x + y) :: decodeName t
    | _, _ => 35 :: decodeName (a :: b :: t)
  | c :: t => c :: decodeName t
  | [] => []

/-- `"sql-param-"`, DB.cpp:37. -/
def prefix' : Bytes := str "sql-param-"

/-- The header for a parameter, as the client of test/lib/RemoteSQLite.cpp:21 writes it. -/
def header (n : Bytes) : Bytes := prefix' ++ encodeName n

/-- The client's side: one header per parameter, RemoteSQLite.cpp:19-22. -/
def attach {D : Type} (fmt : D → Bytes) : List (Bytes × Param D) → Table → Option Table
  | [], t => some t
  | (n, p) :: ps, t => match serialize fmt p with
    | none => none
    | some v => attach fmt ps (t.set (header n) v)

/-- The parameter in one header, DB.cpp:39-45. -/
def collectEntry {D : Type} (rd : Bytes → D) (e : Bytes × Bytes) : Option (Bytes × Param D) :=
  if prefix'.isPrefixOf e.1 then some (decodeName (e.1.drop prefix'.length), deserialize rd e.2) else none

/-- The receiver's side, DB.cpp:37-46: what is inserted into the map of parameters, in order. -/
def collect {D : Type} (rd : Bytes → D) (t : Table) : List (Bytes × Param D) := t.filterMap (collectEntry rd)

end Bedrock.Param
