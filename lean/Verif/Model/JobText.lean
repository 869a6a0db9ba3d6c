import Verif.Model.Json
import Verif.Model.Edit
import Verif.Model.Plugins
import Verif.Model.Literal

/-!
# The text of jobs: from `CreateJob` to the worker and back

`/repo/plugins/Jobs.cpp`: 250-291 (`QueryJob`), 294-345 and 526-606 (what `CreateJob` and `CreateJobs` accept and
store), 745-766 (the name condition of `GetJob`), 885-965, 1000-1016 (the answer of `GetJob` and `GetJobs`),
1640-1670 (`handleFailedReply`).

`Model/Jobs.lean` has the table of jobs with its states; here is what is read from and written to the wire.  `SQ` and
SQLite give back a text without NUL as it was (`Props/Text.lean`, C31), so a column is the text that was stored.
A row is modelled with the columns that are written into answers; `JSON_EXTRACT` is a parameter.
-/

namespace Bedrock.JobText
open Bedrock Bedrock.Text Bedrock.Http Bedrock.Json

/-! ## What is accepted and stored -/

/-- The check of `data`, Jobs.cpp:340-343: `SContains(job, "data") && SParseJSONObject(job["data"]).empty() &&
job["data"] != "{}"` throws 402. -/
def dataOk (job : Table) : Parsed Bool :=
  match job.find (b!"data") with
  | none => .ok true
  | some d =>
    match parseObject (str "null") d with
    | .abort => .abort
    | .ok t => .ok (!(t.isEmpty && d != b!"{}"))

/-- What `peek` answers. -/
inductive Peek where
  /-- the jobs go on to `process` -/
  | accept (jobs : List Table)
  | throws (code : Nat)
  /-- an assertion of the parser ends the server -/
  | abort
  deriving DecidableEq, Repr

/-- The jobs of `CreateJobs`, Jobs.cpp:303-319: the name is looked for in the text of the job. -/
def jobsOf : List Bytes → Peek
  | [] => .accept []
  | x :: xs =>
    match parseObject (str "null") x with
    | .abort => .abort
    | .ok t =>
      if t.isEmpty then .throws 401
      else if !sContains x (b!"name") then .throws 402
      else match jobsOf xs with
        | .accept ts => .accept (t :: ts)
        | e => e

/-- The loop of the checks, Jobs.cpp:322-343; those of the priority, of `retryAfter` and of the parent are left out (the
parent's is in `Model/Jobs.lean`). -/
def checkAll : List Table → List Table → Peek
  | js, [] => .accept js
  | js, j :: rest =>
    match dataOk j with
    | .abort => .abort
    | .ok false => .throws 402
    | .ok true => checkAll js rest

/-- `peek` of `CreateJob`, Jobs.cpp:298-301, 322-343: the name has 1 to 255 bytes. -/
def peekOne (request : Table) : Peek :=
  let name := request.get (b!"name")
  if name.length < 1 then .throws 402
  else if 255 < name.length then .throws 402
  else checkAll [request] [request]

/-- `peek` of `CreateJobs`, Jobs.cpp:303-343. -/
def peekMany (request : Table) : Peek :=
  match parseArray (str "null") (request.get (b!"jobs")) with
  | .abort => .abort
  | .ok xs =>
    if xs.isEmpty then .throws 401
    else match jobsOf xs with
      | .accept js => checkAll js js
      | e => e

/-- The `data` that is stored, Jobs.cpp:553-566, 606.  `none`: an assertion ends the server. -/
def storedData (isFloat : Bytes → Bool) (mock : Bool) (job : Table) : Option Bytes :=
  let d := job.get (b!"data")
  if mock then
    if d.isEmpty then some (b!"{\"mockRequest\":true}")
    else match parseObject (str "null") d with
      | .abort => none
      | .ok t => composeObject isFloat false (t.set (b!"mockRequest") (b!"true"))
  else if d.isEmpty then some (b!"{}")
  else some d

/-! ## What a worker asks for -/

/-- The name condition of `GetJob` and `GetJobs`, Jobs.cpp:745, 762: one name is a pattern, several are a list. -/
def wanted (glob : Bytes → Bytes → Bool) (request name : Bytes) : Bool :=
  let names := (parseList request 44).1
  if 1 < names.length then names.contains name else glob request name

/-- A row of `jobs`; times and `repeat` as SQLite gives them. -/
structure Row where
  jobID : Nat
  name : Bytes
  data : Bytes
  retryAfter : Bytes := []
  created : Bytes := []
  rep : Bytes := []
  lastRun : Bytes := []
  nextRun : Bytes := []
  priority : Int := 500
  parentJobID : Nat := 0
  deriving DecidableEq, Repr

/-- The rows that meet the last condition of the query, `JSON_EXTRACT(data, '$.mockRequest') IS NULL`, Jobs.cpp:763; it
is left out if mocked jobs are asked for.  `extract d`: `none` if SQLite refuses the text (the query fails and the
answer is 502, Jobs.cpp:833-835), else whether there is such a member.  SQLite evaluates it for the rows that meet the
other conditions. -/
def unmocked (extract : Bytes → Option Bool) (mock : Bool) (rows : List Row) : Option (List Row) :=
  if mock then some rows
  else (rows.mapM fun r => (extract r.data).map fun b => (r, b)).map fun l => (l.filter fun p => !p.2).map (·.1)

/-! ## What a worker is given -/

/-- A child of the job: its number, its data, and whether it is `FINISHED` (else `CANCELLED`). -/
structure Child where
  jobID : Nat
  data : Bytes
  finished : Bool
  deriving DecidableEq, Repr

/-- One child, Jobs.cpp:924-932. -/
def childText (isFloat : Bytes → Bool) (c : Child) : Option Bytes :=
  composeObject isFloat false ((Table.set (b!"jobID") (natDec c.jobID) []).set (b!"data") c.data)

/-- The columns, Jobs.cpp:895-905. -/
def rowFields (r : Row) : List (Bytes × Bytes) :=
  [ (b!"jobID", natDec r.jobID), (b!"name", r.name), (b!"data", r.data), (b!"retryAfter", r.retryAfter),
    (b!"created", r.created), (b!"repeat", r.rep), (b!"lastRun", r.lastRun), (b!"nextRun", r.nextRun),
    (b!"priority", intDec r.priority) ]

/-- The parent, Jobs.cpp:906-912.  `pdata`: the data of the parent. -/
def parentFields (r : Row) (pdata : Bytes) : List (Bytes × Bytes) :=
  if r.parentJobID ≠ 0 then [(b!"parentJobID", natDec r.parentJobID), (b!"parentData", pdata)] else []

/-- The children, Jobs.cpp:921-941. -/
def childFields (isFloat : Bytes → Bool) (cs : List Child) : Option (List (Bytes × Bytes)) :=
  if cs = [] then some []
  else do
    let fin ← (cs.filter (·.finished)).mapM (childText isFloat)
    let can ← (cs.filter (fun c => !c.finished)).mapM (childText isFloat)
    let f ← composeArray isFloat fin
    let c ← composeArray isFloat can
    return [(b!"finishedChildJobs", f), (b!"cancelledChildJobs", c)]

/-- What a job is taken with: the row, the data of its parent, its children. -/
structure Item where
  row : Row
  parentData : Bytes := []
  children : List Child := []
  deriving DecidableEq, Repr

/-- The text of one job, Jobs.cpp:895-941, 948. -/
def jobText (isFloat : Bytes → Bool) (i : Item) : Option Bytes := do
  let cs ← childFields isFloat i.children
  composeObject isFloat false
    ((rowFields i.row ++ parentFields i.row i.parentData ++ cs).foldl (fun t e => t.set e.1 e.2) [])

/-- `SToInt(jobData["retryAfterCount"]) >= 10`, Jobs.cpp:943-947.  `none`: abort. -/
def worn (i : Item) : Option Bool :=
  match parseObject (str "null") i.row.data with
  | .abort => none
  | .ok t => some (decide (10 ≤ toInt32 (strtoll (cstr (t.get (b!"retryAfterCount"))))))

/-- The jobs that are not left out, Jobs.cpp:885-949. -/
def jobList (isFloat : Bytes → Bool) : List Item → Option (List Bytes)
  | [] => some []
  | i :: is => do
    let x ← jobText isFloat i
    let w ← worn i
    let xs ← jobList isFloat is
    return if w then xs else x :: xs

/-- The content of the answer of `GetJob`, Jobs.cpp:1000-1011; `some none`: 500. -/
def getJob (isFloat : Bytes → Bool) (is : List Item) : Option (Option Bytes) :=
  (jobList isFloat is).map fun
    | [] => some (b!"{}")
    | [x] => some x
    | _ => none

/-- The content of the answer of `GetJobs`, Jobs.cpp:1012-1016, and `processCommand` that writes `jsonContent`. -/
def getJobs (isFloat : Bytes → Bool) (is : List Item) : Option Bytes := do
  let xs ← jobList isFloat is
  let a ← composeArray isFloat xs
  composeObject isFloat false [(b!"jobs", a)]

/-- The answer of `QueryJob`, Jobs.cpp:281-290. -/
def queryJob (isFloat : Bytes → Bool) (r : Row) (state : Bytes) : Option Bytes :=
  composeObject isFloat false
    ([ (b!"created", r.created), (b!"jobID", natDec r.jobID), (b!"state", state), (b!"name", r.name),
       (b!"nextRun", r.nextRun), (b!"lastRun", r.lastRun), (b!"repeat", r.rep), (b!"data", r.data),
       (b!"retryAfter", r.retryAfter), (b!"priority", intDec r.priority) ].foldl (fun t e => Table.set e.1 e.2 t) [])

/-! ## An answer that was not delivered -/

/-- The number of one job, if there is one, Jobs.cpp:1645-1648, 1652-1656. -/
def idOf (x : Bytes) : Parsed (List Bytes) :=
  match parseObject (str "null") x with
  | .abort => .abort
  | .ok t => .ok (match t.find (b!"jobID") with
    | some v => [v]
    | none => [])

def idsOf : List Bytes → Parsed (List Bytes)
  | [] => .ok []
  | x :: xs =>
    match idOf x, idsOf xs with
    | .ok a, .ok b => .ok (a ++ b)
    | _, _ => .abort

/-- `handleFailedReply`, Jobs.cpp:1640-1670: the `jobIDs` of the `RequeueJobs` that is run, `none` if none is run.  The
whole first line of the request is compared, not its verb. -/
def failedReply (line content : Bytes) : Parsed (Option Bytes) :=
  let ids :=
    if sIEquals line (b!"GetJob") then some (idOf content)
    else if sIEquals line (b!"GetJobs") then
      some (match parseObject (str "null") content with
        | .abort => .abort
        | .ok t =>
          match parseArray (str "null") (t.get (b!"jobs")) with
          | .abort => .abort
          | .ok xs => idsOf xs)
    else none
  match ids with
  | none => .ok none
  | some .abort => .abort
  | some (.ok l) => .ok (some (composeList l [44, 32]))

/-- The numbers `RequeueJobs` works on, Jobs.cpp:1461. -/
def requeued (jobIDs : Bytes) : List Int := Edit.parseInts jobIDs 44

/-- Does the Jobs plugin take the request for this command, Jobs.cpp:116-122, 158-160. -/
def runs (line verb : Bytes) : Bool := sIEquals (Plugins.verb { methodLine := line }) verb

/-- `CancelJob`, Jobs.cpp:418, 1329: the whole line again.  A request that the plugin takes and that has no branch does
nothing and is answered `200 OK`. -/
def cancels (line : Bytes) : Bool := sIEquals line (b!"CancelJob")

end Bedrock.JobText
