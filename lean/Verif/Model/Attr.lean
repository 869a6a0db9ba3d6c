import Verif.Model.Search
import Verif.Model.Http

/-!
# Checks on the attributes of a request

BedrockPlugin.cpp: `verifyAttribute*` and `isValidDate`; plugins/DB.cpp: which queries `process` refuses.
-/

namespace Bedrock.Attr
open Bedrock Bedrock.Text Bedrock.Http

/-- What a check does: return, or throw `402 Missing ...` or `402 Malformed ...`. -/
inductive Verdict where
  | accepted
  | missing
  | malformed
  deriving DecidableEq, Repr

/-- `verifyAttributeInt64`, BedrockPlugin.cpp:20-28, on the value of the attribute (empty if it is not there). -/
def verifyInt64 (v : Bytes) (minSize : Nat) : Verdict :=
  if v.length < minSize then .missing
  else if v ≠ [] ∧ v ≠ intDec (strtoll v) then .malformed
  else .accepted

/-- `verifyAttributeSize`, BedrockPlugin.cpp:30-38. -/
def verifySize (v : Bytes) (minSize maxSize : Nat) : Verdict :=
  if v.length < minSize then .missing
  else if maxSize < v.length then .malformed
  else .accepted

/-- `verifyAttributeBool`, BedrockPlugin.cpp:40-48. -/
def verifyBool (v : Bytes) (require : Bool) : Verdict :=
  if require && v.isEmpty then .missing
  else if !v.isEmpty && !sIEquals v (str "true") && !sIEquals v (str "false") then .malformed
  else .accepted

/-! ## The regular expression for dates -/

/-- Regular expressions without repetition. -/
inductive Re where
  | eps
  | one (p : UInt8 → Bool)
  | seq (a b : Re)
  | alt (a b : Re)

/-- What a backtracking matcher can leave of the input. -/
def Re.run : Re → Bytes → List Bytes
  | .eps, s => [s]
  | .one p, s => match s with
    | [] => []
    | c :: t => if p c then [t] else []
  | .seq a b, s => (a.run s).flatMap b.run
  | .alt a b, s => a.run s ++ b.run s

/-- `SREMatch` of the whole input (`PCRE2_ANCHORED | PCRE2_ENDANCHORED`), libstuff.cpp:3217-3237. -/
def Re.full (r : Re) (s : Bytes) : Bool := (r.run s).any (· == [])

def Re.ch (c : UInt8) : Re := .one (· == c)
def Re.digit : Re := .one (fun c => 48 ≤ c && c ≤ 57)
def Re.range (a b : UInt8) : Re := .one (fun c => a ≤ c && c ≤ b)

/-- `^(19|2[0-9])\d\d-(0[1-9]|1[012])-(0[1-9]|[12][0-9]|3[01])( \d{2}:\d{2}:\d{2})?$`, BedrockPlugin.cpp:17. -/
def dateRe : Re :=
  .seq (.alt (.seq (.ch 49) (.ch 57)) (.seq (.ch 50) (.range 48 57))) <| .seq .digit <| .seq .digit <| .seq (.ch 45) <|
  .seq (.alt (.seq (.ch 48) (.range 49 57)) (.seq (.ch 49) (.range 48 50))) <| .seq (.ch 45) <|
  .seq (.alt (.seq (.ch 48) (.range 49 57)) (.alt (.seq (.range 49 50) (.range 48 57)) (.seq (.ch 51) (.range 48 49)))) <|
  .alt (.seq (.ch 32) <| .seq .digit <| .seq .digit <| .seq (.ch 58) <| .seq .digit <| .seq .digit <| .seq (.ch 58) <|
    .seq .digit .digit) .eps

/-- `isValidDate`, BedrockPlugin.cpp:15-18. -/
def isValidDate (s : Bytes) : Bool := dateRe.full s

/-- `verifyAttributeDate`, BedrockPlugin.cpp:50-59. -/
def verifyDate (v : Bytes) (require : Bool) : Verdict :=
  if require && v.isEmpty then .missing
  else if !v.isEmpty && !isValidDate v then .malformed
  else .accepted

/-! ## Queries -/

/-- `SData::test`, SData.cpp:101-105, with `calc` of 76-90. -/
def test (v : Bytes) : Bool := sIEquals v (str "true") || toInt32 (min (strtoll v) 0x7fffffff) != 0

/-- The query of a request, DB.cpp:26-35: in the method line or in a header, trimmed. -/
def queryOf (m : Msg) : Bytes :=
  trim (if (str "query:").isPrefixOf (sToLower m.methodLine) then m.methodLine.drop 6 else m.table.get (str "query"))

/-- What `process` does with a query. -/
inductive Fate where
  /-- in no-op mode nothing is done -/
  | ignored
  /-- `402 Malformed nowhere` -/
  | malformed
  /-- `502 Query aborted` -/
  | aborted
  /-- handed to the database -/
  | written (query : Bytes)
  deriving DecidableEq, Repr

/-- `process`, DB.cpp:167-186, up to the call of `write`. -/
def process (noop : Bool) (m : Msg) : Fate :=
  if noop then .ignored
  else if verifyBool (m.table.get (str "nowhere")) false ≠ .accepted then .malformed
  else if !test (m.table.get (str "nowhere")) &&
      ((str "UPDATE").isPrefixOf (sToUpper (queryOf m)) || (str "DELETE").isPrefixOf (sToUpper (queryOf m))) &&
      !sContains (sToUpper (queryOf m)) (str " WHERE ") then .aborted
  else .written (queryOf m)

end Bedrock.Attr
