import Verif.Model.Basic

/-!
# Model of the Jobs plugin

`/repo/plugins/Jobs.cpp`.  The `jobs` table is a list of rows in an arbitrary order; every command is a
function from the table (and the clock) to an error, which rolls back, or a new table and an answer.

Simplifications, for the whole file:

* A time is an integer (milliseconds); the code compares the texts `YYYY-MM-DD HH:MM:SS[.mmm]`, which order
  the same way.  0 stands for the empty text, which is before every time.
* The date arithmetic of SQLite is a parameter (`Env`); the part the plugin computes itself is in
  `Model/JobsSchedule.lean`.
* The `data` of a job is the three fields the plugin reads (`mockRequest`, `retryAfterCount`,
  `originalNextRun`) and an opaque rest; it is assumed to be valid JSON.
* Patterns (`GLOB`) are predicates on names.
* Rows of equal rank are taken in table order; `UNION ALL`/`ORDER BY` of SQLite is stable.
* `db.read`/`db.write` fail only for constraint violations ("502" for other reasons is not modelled).
* `peek` and `process` of a command see the same table: on the leader they run in one transaction.
-/

namespace Bedrock.Jobs
open Bedrock

/-- The `state` column. -/
inductive St where
  | queued | runqueued | running | paused | finished | failed | cancelled
  deriving DecidableEq, Repr

/-- The `priority` column: a number, or text that is not one (an INTEGER column keeps such text). -/
inductive Prio where
  | num (n : Int)
  | text
  deriving DecidableEq, Repr

structure Data where
  mocked : Bool := false
  retryAfterCount : Option Int := none
  originalNextRun : Option Int := none
  rest : Nat := 0
  deriving DecidableEq, Repr

/-- A row, Jobs.cpp:131-143.  `repeat` and `retryAfter` are codes interpreted by `Env`; `none` is the empty
text.  `parent = 0`: no parent.  `lastRun = 0`: never. -/
structure Job where
  id : Int
  created : Int := 0
  state : St
  name : Bytes := []
  nextRun : Int := 0
  lastRun : Int := 0
  rep : Option Nat := none
  data : Data := {}
  priority : Prio := .num 500
  parent : Int := 0
  retryAfter : Option Nat := none
  deriving DecidableEq, Repr

abbrev Table := List Job

/-- What `_constructNextRunDATETIME` gives: the empty string, or an expression that SQLite evaluates to
NULL or to a time. -/
inductive NR where
  | invalid
  | null
  | time (t : Int)
  deriving DecidableEq, Repr

/-- The date functions. -/
structure Env where
  /-- the repeat counts from the scheduled time ("SCHEDULED") -/
  scheduled : Nat → Bool
  /-- `_constructNextRunDATETIME(lastScheduled, lastRun, repeat)` at `now` -/
  next : (rep : Nat) → (lastScheduled lastRun now : Int) → NR
  /-- `DATETIME(now, retryAfter)` -/
  retryAt : (retryAfter : Nat) → (now : Int) → Option Int
  /-- the next run for "FINISHED, +delay SECONDS" -/
  delayed : (delay now : Int) → NR

/-- Why a command failed. -/
inductive Err where
  | badRequest | notFound | badState | mockMismatch | constraint
  /-- a failed assertion: the process dies -/
  | died
  deriving DecidableEq, Repr

/-- A timestamp with seconds, `SCURRENT_TIMESTAMP`. -/
def sec (now : Int) : Int := now / 1000 * 1000

def lookup (db : Table) (id : Int) : Option Job := db.find? (·.id = id)

/-- `UPDATE jobs SET … WHERE jobID = id`. -/
def set (id : Int) (f : Job → Job) (db : Table) : Table :=
  db.map fun j => if j.id = id then f j else j

def pending : St → Bool
  | .queued | .runqueued | .running | .paused => true
  | _ => false

/-- The children of a job: `parentJobID != 0 AND parentJobID = id`. -/
def isChild (id : Int) (j : Job) : Bool := j.parent ≠ 0 ∧ j.parent = id

/-- `_hasPendingChildJobs`, Jobs.cpp:1600-1614. -/
def hasPending (db : Table) (id : Int) : Bool := db.any fun j => isChild id j ∧ pending j.state

/-- `_validatePriority`, Jobs.cpp:1616-1627. -/
def validPriority (p : Int) : Bool := p ∈ [0, 250, 500, 750, 850, 1000]

/-! ## CreateJob(s) -/

/-- The description of a job to create.  Absent and empty texts are `none`. -/
structure NewJob where
  name : Bytes := []
  data : Option Data := none
  firstRun : Option Int := none
  rep : Option Nat := none
  jobPriority : Option Int := none
  priority : Option Int := none
  parent : Int := 0
  retryAfter : Option Nat := none
  unique : Bool := false
  overwrite : Bool := true
  deriving DecidableEq, Repr

/-- States in which a job can get children, Jobs.cpp:355, 637. -/
def canHaveChildren : St → Bool
  | .running | .runqueued | .paused => true
  | _ => false

/-- The existing job a unique job is identified with, Jobs.cpp:384-391, 571-579. -/
def findUnique (db : Table) (mock : Bool) (n : NewJob) : Option Job :=
  db.find? fun j => j.name = n.name ∧ j.data.mocked = mock

/-- Equality of the texts of `data`, Jobs.cpp:401, 584. -/
def sameData (d : Option Data) (j : Job) : Bool :=
  match d with
  | none => j.data = {}
  | some d => j.data = d

/-- The mock setting is taken over from the parent, Jobs.cpp:340-380. -/
def peekParent (db : Table) (reqMock mock : Bool) (parent : Int) : Except Err Bool :=
  if parent = 0 then .ok mock else
  match lookup db parent with
  | none => .error .notFound
  | some p =>
    if canHaveChildren p.state = false then .error .badState
    else if p.data.mocked = true ∧ reqMock = false then .ok true
    else if p.data.mocked = false ∧ reqMock = true then .ok false
    else .ok mock

/-- `peek` for one job, Jobs.cpp:325-410: an error, or the mock setting and whether an existing job with
this ID is the answer. -/
def peekCreate (db : Table) (single reqMock mock : Bool) (n : NewJob) : Except Err (Bool × Option Int) :=
  if validPriority (n.jobPriority.getD 500) = false then .error .badRequest
  else match peekParent db reqMock mock n.parent with
  | .error e => .error e
  | .ok mock =>
    match (if n.unique then findUnique db mock n else none) with
    | none => .ok (mock, none)
    | some j =>
      if j.parent ≠ 0 ∧ j.parent ≠ n.parent then .error .notFound
      else if single = true ∧ sameData n.data j = true then .ok (mock, some j.id)
      else .ok (mock, none)

/-- `peek` for all jobs, Jobs.cpp:301-417. -/
def peekCreates (db : Table) (single reqMock : Bool) : Bool → List NewJob → Except Err (Bool × Option Int)
  | mock, [] => .ok (mock, none)
  | mock, n :: ns =>
    match peekCreate db single reqMock mock n with
    | .error e => .error e
    | .ok (mock, some id) => .ok (mock, some id)
    | .ok (mock, none) => peekCreates db single reqMock mock ns

/-- `JSON_PATCH` on the modelled fields. -/
def patch (old new : Data) : Data :=
  { mocked := old.mocked || new.mocked
    retryAfterCount := new.retryAfterCount.or old.retryAfterCount
    originalNextRun := new.originalNextRun.or old.originalNextRun
    rest := new.rest }

/-- The check of the parent in `process`, Jobs.cpp:627-655. -/
def checkParent (db : Table) (mock : Bool) (parent : Int) : Except Err Unit :=
  if parent = 0 then .ok () else
  match lookup db parent with
  | none => .error .notFound
  | some p =>
    if canHaveChildren p.state = false then .error .badState
    else if mock ≠ p.data.mocked then .error .badState
    else if p.parent ≠ 0 then .error .badState
    else .ok ()

/-- The row of a new job, Jobs.cpp:677-711. -/
def newRow (db : Table) (now : Int) (id prio : Int) (data : Option Data) (rep : Option Nat) (n : NewJob) : Job :=
  { id := id, created := sec now
    state := if n.parent = 0 then .queued else
      match lookup db n.parent with
      | some p => if p.state = .running ∨ p.state = .runqueued then .paused else .queued
      | none => .queued
    name := n.name, nextRun := n.firstRun.getD now, rep := rep, data := data.getD {}
    priority := .num prio, parent := n.parent, retryAfter := n.retryAfter }

/-- The data stored, Jobs.cpp:553-566. -/
def newData (mock : Bool) (n : NewJob) : Option Data :=
  if mock then some { n.data.getD {} with mocked := true } else n.data

/-- The repeat stored; mocked jobs never repeat. -/
def newRepeat (mock : Bool) (n : NewJob) : Option Nat := if mock then none else n.rep

def newPriority (n : NewJob) : Int := n.jobPriority.getD (n.priority.getD 500)

/-- An existing job is overwritten, Jobs.cpp:660-669. -/
def overwrite (mock : Bool) (n : NewJob) (j : Job) : Job :=
  { j with rep := newRepeat mock n, data := patch j.data ((newData mock n).getD {}), priority := .num (newPriority n) }

/-- `process` for one job, Jobs.cpp:546-722.  `newId` is the ID `getRandomID` found; a used one violates the
primary key. -/
def processCreate (env : Env) (now : Int) (db : Table) (mock : Bool) (newId : Int) (n : NewJob) :
    Except Err (Table × Int) :=
  let existing := if n.unique then findUnique db mock n else none
  match existing.filter (sameData (newData mock n)) with
  | some j => .ok (db, j.id)
  | none =>
    if (newRepeat mock n).any (fun r => env.next r 0 0 now = .invalid) then .error .badRequest
    else if validPriority (newPriority n) = false then .error .badRequest
    else match checkParent db mock n.parent with
    | .error e => .error e
    | .ok () =>
      match existing with
      | some j => .ok (if n.overwrite then set j.id (overwrite mock n) db else db, j.id)
      | none =>
        if (lookup db newId).isSome then .error .constraint
        else .ok (db ++ [newRow db now newId (newPriority n) (newData mock n) (newRepeat mock n) n], newId)

/-- `process` for all jobs. -/
def processCreates (env : Env) (now : Int) (mock : Bool) : Table → List (NewJob × Int) → Except Err (Table × List Int)
  | db, [] => .ok (db, [])
  | db, (n, newId) :: ns =>
    match processCreate env now db mock newId n with
    | .error e => .error e
    | .ok (db, id) =>
      match processCreates env now mock db ns with
      | .error e => .error e
      | .ok (db, ids) => .ok (db, id :: ids)

/-- CreateJob(s), Jobs.cpp:301-417 and 484-727. -/
def create (env : Env) (now : Int) (single reqMock : Bool) (ns : List (NewJob × Int)) (db : Table) :
    Except Err (Table × List Int) :=
  match peekCreates db single reqMock reqMock (ns.map (·.1)) with
  | .error e => .error e
  | .ok (_, some id) => .ok (db, [id])
  | .ok (mock, none) => processCreates env now mock db ns

/-! ## GetJob(s) -/

/-- The `WHERE` clause without the priority, Jobs.cpp:753-760. -/
def eligible (now : Int) (pat : Bytes → Bool) (mock : Bool) (j : Job) : Bool :=
  (j.state = .queued ∨ j.state = .runqueued) ∧ j.nextRun ≤ now ∧ pat j.name = true ∧ (mock = true ∨ j.data.mocked = false)

/-- Insertion before the first element that may follow. -/
def insertBy (le : Job → Job → Bool) (a : Job) : List Job → List Job
  | [] => [a]
  | b :: l => if le a b then a :: b :: l else b :: insertBy le a l

/-- `ORDER BY`: a stable sort. -/
def sortBy (le : Job → Job → Bool) : List Job → List Job
  | [] => []
  | a :: l => insertBy le a (sortBy le l)

/-- `ORDER BY nextRun ASC`. -/
def byNextRun (l : List Job) : List Job := sortBy (fun a b => a.nextRun ≤ b.nextRun) l

/-- One of the six inner queries. -/
def candidatesAt (now : Int) (pat : Bytes → Bool) (mock : Bool) (n : Nat) (db : Table) (p : Int) : List Job :=
  (byNextRun (db.filter fun j => eligible now pat mock j ∧ j.priority = .num p)).take n

def rank (j : Job) : Int :=
  match j.priority with
  | .num n => n
  | .text => 0

/-- The query, Jobs.cpp:745-836. -/
def select (now : Int) (pat : Bytes → Bool) (mock : Bool) (prio : Option Int) (n : Nat) (db : Table) : List Job :=
  match prio with
  | some p => candidatesAt now pat mock n db p
  | none =>
    (sortBy (fun a b => rank b ≤ rank a)
      ([1000, 850, 750, 500, 250, 0].flatMap (candidatesAt now pat mock n db))).take n

/-- `SStartsWith(name, "manual")`. -/
def manual (name : Bytes) : Bool := [109, 97, 110, 117, 97, 108].isPrefixOf name

/-- `SToInt(data["retryAfterCount"])`. -/
def count (j : Job) : Int := j.data.retryAfterCount.getD 0

/-- The next run of a job with `retryAfter`, Jobs.cpp:955-959: `MIN` of two times, NULL if one is. -/
def retryTime (env : Env) (now : Int) (m : Nat) (j : Job) : Option Int :=
  match j.rep with
  | none => env.retryAt m (sec now)
  | some r =>
    match env.next r j.nextRun (sec now) now with
    | .invalid => env.retryAt m (sec now)
    | .null => none
    | .time t => (env.retryAt m (sec now)).map (min · t)

/-- What becomes of the row of a selected job, Jobs.cpp:849-997. -/
def taken (env : Env) (now : Int) (crash : Bytes → Bool) (j : Job) : Job :=
  if crash j.name then { j with state := .failed }
  else match j.retryAfter with
    | none => { j with state := .running, lastRun := sec now }
    | some m =>
      if 10 ≤ count j then { j with state := .failed }
      else match retryTime env now m j with
        | none => { j with state := .failed }
        | some t =>
          { j with
            state := .runqueued, lastRun := sec now, nextRun := t
            data := if manual j.name then j.data else
              { j.data with
                retryAfterCount := some (j.data.retryAfterCount.getD 0 + 1)
                originalNextRun := if j.rep.any env.scheduled then some j.nextRun else j.data.originalNextRun } }

/-- GetJob(s), Jobs.cpp:729-1018: the new table and the jobs handed out, as they were. -/
def get (env : Env) (now : Int) (pat crash : Bytes → Bool) (mock : Bool) (prio : Option Int) (num : Int)
    (db : Table) : Except Err (Table × List Job) :=
  if (prio.all validPriority) = false then .error .badRequest
  else
    let cands := select now pat mock prio (max num 1).toNat db
    if cands = [] then .error .notFound
    else .ok (db.map fun j => if cands.any (·.id = j.id) then taken env now crash j else j,
      cands.filter fun j => crash j.name = false ∧ count j < 10)

/-! ## The other commands -/

/-- The new run time given to UpdateJob or computed from its repeat; `invalid`: unchanged. -/
def updatedRun (env : Env) (now : Int) (j : Job) (rep : Option Nat) (nextRun : Option Int) : NR :=
  match nextRun, rep with
  | some t, _ => .time t
  | none, some r => env.next r j.nextRun j.lastRun now
  | none, none => .invalid

/-- The row after UpdateJob, Jobs.cpp:1066-1089. -/
def updated (data : Data) (rep : Option Nat) (clear : Bool) (run : NR) (prio : Option Int) (j : Job) : Job :=
  { j with
    data := { data with mocked := j.data.mocked }
    rep := if clear then none else rep.or j.rep
    nextRun := match run with
      | .time t => t
      | _ => j.nextRun
    priority := match prio with
      | some p => .num p
      | none => j.priority }

/-- UpdateJob, Jobs.cpp:1020-1093. -/
def update (env : Env) (now id : Int) (data : Data) (rep : Option Nat) (clear : Bool) (nextRun : Option Int)
    (prio : Option Int) (db : Table) : Except Err Table :=
  if id < 1 then .error .badRequest
  else if rep.any (fun r => env.next r 0 0 now = .invalid) then .error .badRequest
  else if prio.all validPriority = false then .error .badRequest
  else match lookup db id with
  | none => .error .notFound
  | some j =>
    if updatedRun env now j rep nextRun = .null then .error .constraint
    else .ok (set id (updated data rep clear (updatedRun env now j rep nextRun) prio) db)

/-- The additional arguments of RetryJob; `prio` is the parsed number and whether the text is just that
number (the text itself is stored, Jobs.cpp:1236-1237). -/
structure Retry where
  name : Option Bytes := none
  prio : Option (Int × Bool) := none
  nextRun : Option Int := none
  delay : Int := 0
  deriving DecidableEq, Repr

/-- The new run time for FinishJob and RetryJob, Jobs.cpp:1246-1285; `rep` is the repeat after the `delete` flag. -/
def rescheduled (env : Env) (now : Int) (j : Job) (rep : Option Nat) (ignoreRepeat : Bool) (retry : Option Retry) :
    Except Err NR :=
  match rep, ignoreRepeat with
  | some r, false =>
    let lastScheduled := if j.retryAfter.isSome = true ∧ env.scheduled r = true then j.data.originalNextRun.getD 0 else j.nextRun
    .ok (env.next r lastScheduled j.lastRun now)
  | _, _ =>
    match retry with
    | none => .ok .invalid
    | some q =>
      match q.nextRun with
      | some t => .ok (.time t)
      | none =>
        if q.delay < 0 then .error .badRequest
        else if env.delayed q.delay now = .invalid then .error .badRequest
        else .ok (env.delayed q.delay now)

/-- The end of FinishJob and RetryJob, Jobs.cpp:1287-1326. -/
def conclude (id : Int) (j : Job) (isRetry : Bool) (nr : NR) (db : Table) : Except Err Table :=
  match nr with
  | .time t => .ok (set id (fun j => { j with nextRun := t, state := .queued }) db)
  | .null => .error .constraint
  | .invalid =>
    if isRetry then .error .died
    else if j.parent ≠ 0 then
      let db := set id (fun j => { j with state := .finished }) db
      if hasPending db j.parent then .ok db
      else .ok (set j.parent (fun j => { j with state := .queued }) db)
    else
      let db := db.filter (·.id ≠ id)
      if db.any (isChild id) then .error .badState
      else .ok db

/-- The finished and cancelled children are deleted, Jobs.cpp:1178-1182. -/
def dropDone (id : Int) (db : Table) : Table :=
  db.filter fun c => ¬ (isChild id c = true ∧ (c.state = .finished ∨ c.state = .cancelled))

/-- The new data is stored and `retryAfterCount` removed, Jobs.cpp:1184-1213. -/
def storeData (id : Int) (data : Option (Data × Bool)) (db : Table) : Table :=
  set id (fun j => { j with data := { (data.map (·.1)).getD j.data with retryAfterCount := none } }) db

/-- The parent waits and its children may run, Jobs.cpp:1220-1229. -/
def pauseForChildren (id lastRun : Int) (db : Table) : Table :=
  (set id (fun k => { k with state := .paused, nextRun := lastRun }) db).map fun c =>
    if c.state = .paused ∧ isChild id c = true then { c with state := .queued } else c

/-- RetryJob can change name and priority, Jobs.cpp:1236-1252. -/
def relabel (id : Int) (retry : Option Retry) (db : Table) : Table :=
  match retry with
  | none => db
  | some q => set id (fun j =>
      { j with
        name := q.name.getD j.name
        priority := match q.prio with
          | none => j.priority
          | some (p, true) => .num p
          | some (_, false) => .text }) db

/-- FinishJob (`retry = none`) and RetryJob, Jobs.cpp:1095-1327.  `data`: the new data and its `delete` flag. -/
def finish (env : Env) (now id : Int) (data : Option (Data × Bool)) (ignoreRepeat : Bool) (retry : Option Retry)
    (db : Table) : Except Err Table :=
  if id < 1 then .error .badRequest
  else match lookup db id with
  | none => .error .notFound
  | some j =>
    if j.state ≠ .running ∧ j.state ≠ .runqueued ∧ j.data.mocked = false then .error .badState
    else if j.parent ≠ 0 ∧ (lookup db j.parent).map (·.state) ≠ some .paused then .error .badState
    else if data.any (fun d => d.1.mocked ≠ j.data.mocked) then .error .mockMismatch
    else if retry.isNone = true ∧ hasPending (storeData id data (dropDone id db)) id = true then
      .ok (pauseForChildren id j.lastRun (storeData id data (dropDone id db)))
    else if (retry.bind (·.prio)).any (fun p => validPriority p.1 = false) then .error .badRequest
    else match rescheduled env now j (if data.any (·.2) then none else j.rep) ignoreRepeat retry with
    | .error e => .error e
    | .ok nr => conclude id j retry.isSome nr (relabel id retry (storeData id data (dropDone id db)))

/-- CancelJob, Jobs.cpp:419-470 and 1329-1369. -/
def cancel (id : Int) (db : Table) : Except Err Table :=
  if id < 1 then .error .badRequest
  else match lookup db id with
    | none => .error .notFound
    | some j =>
      if db.any (isChild id) then .error .notFound
      else if j.parent = 0 then .error .notFound
      else if j.state = .finished ∨ j.state = .running ∨ j.state = .paused then .ok db
      else
        let db := set id (fun j => { j with state := .cancelled }) db
        if db.any (fun c => isChild j.parent c ∧ (c.state = .queued ∨ c.state = .runqueued ∨ c.state = .running)) then
          .ok db
        else .ok (set j.parent (fun j => { j with state := .queued }) db)

/-- FailJob, Jobs.cpp:1371-1418. -/
def fail (id : Int) (data : Option Data) (db : Table) : Except Err Table :=
  if id < 1 then .error .badRequest
  else match lookup db id with
    | none => .error .notFound
    | some j =>
      if j.state ≠ .running ∧ j.state ≠ .runqueued then .error .badState
      else .ok (set id (fun j => { j with data := data.getD j.data, state := .failed }) db)

/-- DeleteJob, Jobs.cpp:1420-1456. -/
def delete (id : Int) (db : Table) : Except Err Table :=
  if id < 1 then .error .badRequest
  else match lookup db id with
    | none => .error .notFound
    | some j =>
      if j.state = .running ∨ j.state = .paused then .error .badState
      else .ok (db.filter (·.id ≠ id))

/-- RequeueJobs, Jobs.cpp:1458-1478. -/
def requeue (ids : List Int) (name : Option Bytes) (decrement : Bool) (db : Table) : Table :=
  db.map fun j => if j.id ∈ ids then
    { j with
      state := .queued, nextRun := j.created, name := name.getD j.name
      data := if decrement then { j.data with retryAfterCount := some (j.data.retryAfterCount.getD 1 - 1) } else j.data }
    else j

/-! ## Histories -/

inductive Op where
  | create (single mock : Bool) (ns : List (NewJob × Int))
  | get (pat crash : Bytes → Bool) (mock : Bool) (prio : Option Int) (num : Int)
  | update (id : Int) (data : Data) (rep : Option Nat) (clear : Bool) (nextRun prio : Option Int)
  | finish (id : Int) (data : Option (Data × Bool)) (ignoreRepeat : Bool)
  | retry (id : Int) (data : Option (Data × Bool)) (ignoreRepeat : Bool) (q : Retry)
  | cancel (id : Int)
  | fail (id : Int) (data : Option Data)
  | delete (id : Int)
  | requeue (ids : List Int) (name : Option Bytes) (decrement : Bool)

/-- What a command answers. -/
inductive Ans where
  | ok
  | ids (l : List Int)
  | jobs (l : List Job)
  | err (e : Err)
  deriving DecidableEq, Repr

/-- A command as a step; an error rolls its transaction back. -/
def step (env : Env) (now : Int) (op : Op) (db : Table) : Table × Ans :=
  let plain : Except Err Table → Table × Ans := fun
    | .ok db => (db, .ok)
    | .error e => (db, .err e)
  match op with
  | .create single mock ns =>
    match create env now single mock ns db with
    | .ok (db, ids) => (db, .ids ids)
    | .error e => (db, .err e)
  | .get pat crash mock prio num =>
    match get env now pat crash mock prio num db with
    | .ok (db, l) => (db, .jobs l)
    | .error e => (db, .err e)
  | .update id data rep clear nextRun prio => plain (update env now id data rep clear nextRun prio db)
  | .finish id data ign => plain (finish env now id data ign none db)
  | .retry id data ign q => plain (finish env now id data ign (some q) db)
  | .cancel id => plain (cancel id db)
  | .fail id data => plain (fail id data db)
  | .delete id => plain (delete id db)
  | .requeue ids name dec => (requeue ids name dec db, .ok)

/-- A history: every command with its clock reading; the final table and all answers. -/
def run (env : Env) : Table → List (Int × Op) → Table × List Ans
  | db, [] => (db, [])
  | db, (now, op) :: ops =>
    let r := step env now op db
    let rest := run env r.1 ops
    (rest.1, r.2 :: rest.2)

end Bedrock.Jobs
