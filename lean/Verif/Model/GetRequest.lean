import Verif.Model.Jobs
import Verif.Model.JobText
import Verif.Model.Attr

/-! # A worker's request: plugins/Jobs.cpp:209-248 (`peek` of `GetJob` and `GetJobs`), 738-754 (what `process` reads of it)

From the headers of the request to the jobs that are handed out (`Model/Jobs.lean`).  `glob`: SQLite's `GLOB`, pattern first;
`crash`: the names that are blacklisted.  Jobs are selected in `process` by the headers that `peek` has checked. -/

namespace Bedrock.GetRequest
open Bedrock Text Http JobText Attr

/-- `request.calc`, SData.cpp:76-79: the minimum of two `long`s, narrowed to `int`. -/
def calcInt (t : Table) (n : Bytes) : Int := toInt32 (min (strtoll (t.get n)) 0x7fffffff)

/-- `request.isSet`, SData.cpp:71-74. -/
def isSet (t : Table) (n : Bytes) : Bool := (t.find n).isSome

/-- `peek`, Jobs.cpp:233-247; the error is the method line of the answer. -/
def peek (verb : Bytes) (t : Table) : Except Bytes Unit :=
  match verifySize (t.get (b!"name")) 1 (255 * 50) with
  | .missing => .error (b!"402 Missing name")
  | .malformed => .error (b!"402 Malformed name")
  | .accepted =>
    if sIEquals verb (b!"GetJobs") ≠ isSet t (b!"numResults") then
      if sIEquals verb (b!"GetJobs") then .error (b!"402 Missing numResults")
      else .error (b!"402 Cannot use numResults with GetJob; try GetJobs")
    else if isSet t (b!"jobPriority") = true ∧ Jobs.validPriority (strtoll (t.get (b!"jobPriority"))) = false then
      .error (b!"402 Invalid priority value")
    else .ok ()

/-- The priority that is selected, Jobs.cpp:745-750. -/
def priority (t : Table) : Option Int := if isSet t (b!"jobPriority") then some (calcInt t (b!"jobPriority")) else none

/-- Jobs.cpp:170, 740. -/
def mocked (t : Table) : Bool := isSet t (b!"mockRequest") || isSet t (b!"getMockedJobs")

/-- The request, refused with a method line or answered by the table. -/
inductive Answer where
  | refused (line : Bytes)
  | failed (e : Jobs.Err)
  | jobs (db : Jobs.Table) (l : List Jobs.Job)

/-- `GetJob` and `GetJobs`, Jobs.cpp:209-248, 729-1018. -/
def answer (env : Jobs.Env) (now : Int) (glob : Bytes → Bytes → Bool) (crash : Bytes → Bool) (verb : Bytes) (t : Table)
    (db : Jobs.Table) : Answer :=
  match peek verb t with
  | .error l => .refused l
  | .ok () =>
    match Jobs.get env now (wanted glob (t.get (b!"name"))) crash (mocked t) (priority t) (calcInt t (b!"numResults")) db with
    | .error e => .failed e
    | .ok r => .jobs r.1 r.2

end Bedrock.GetRequest
