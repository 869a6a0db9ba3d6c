import Verif.Model.Basic

/-!
# The database layer: handles, commit lock, journal tables, replication feed

Models `sqlitecluster/SQLite.cpp` / `SQLite.h`: `beginTransaction`, `_writeIdempotent`,
`prepare`, `commit`, `rollback`, `SharedData` and `initializeSharedData`.

What is not modelled: the user tables (only the text of the queries), timing statistics,
checkpointing, the plugin prepare handler (see `Model/OnPrepare.lean`), and SQLite's own conflict detection, whose outcome
(`COMMIT` succeeded / `SQLITE_BUSY_SNAPSHOT`) is an input of the model.  Every handle is used
by one thread, identified with the handle, and each operation below is atomic: the fields it
touches are only shared under the commit lock or the internal state mutex.
-/

namespace Bedrock.DB

/-- The parts of the environment the journal depends on.
`sha1hex x` is `SToHex(SHashSHA1(x))` (SQLite.cpp:1037); `compress` is
`BedrockPlugin_Compression::compress(·, journalZstdDictionaryID)` (SQLite.cpp:1049). -/
structure Env where
  sha1hex : Bytes → Bytes
  compress : Bytes → Bytes
  /-- `_maxJournalSize` (SQLite.cpp:949) -/
  maxJournalSize : Nat
  /-- number of journal tables, `_journalNames.size()` (SQLite.cpp:200-274: at least
  `journal` and `journal0000`) -/
  numJournals : Nat

/-- One row of a journal table: `( id INTEGER PRIMARY KEY, query TEXT, hash TEXT )`
(SQLite.cpp:214). -/
structure Row where
  id : Nat
  query : Bytes
  hash : Bytes
deriving DecidableEq, Repr

/-- Per-handle members of class `SQLite` (SQLite.h) that matter for commit bookkeeping, plus
the part of the open SQLite transaction that touches the journal. -/
structure Handle where
  /-- `_insideTransaction` -/
  inside : Bool := false
  /-- `_mutexLocked` -/
  locked : Bool := false
  /-- `_uncommittedQuery` (compressed in place by `prepare`) -/
  uquery : Bytes := []
  /-- `_uncommittedHash` -/
  uhash : Bytes := []
  /-- journal row inserted in the open transaction: journal table index and row -/
  pending : Option (Nat × Row) := none
  /-- journal rows deleted in the open transaction: table index and row ids -/
  trims : List (Nat × List Nat) := []
deriving DecidableEq, Repr

/-- A `map<uint64_t, pair<string,string>>` as an association list sorted by insertion;
`SharedData::_preparedTransactions` / `_committedTransactions`. -/
abbrev TxMap := List (Nat × (Bytes × Bytes))

/-- `map::insert_or_assign` (SQLite.cpp:1695). -/
def TxMap.insertOrAssign (m : TxMap) (k : Nat) (v : Bytes × Bytes) : TxMap :=
  (k, v) :: m.filter (fun e => e.1 != k)

/-- The node removed by `map::extract` (SQLite.cpp:1701). -/
def TxMap.find (m : TxMap) (k : Nat) : Option (Nat × (Bytes × Bytes)) :=
  List.find? (fun e => e.1 == k) m

/-- What is left after `map::extract` (SQLite.cpp:1701). -/
def TxMap.eraseKey (m : TxMap) (k : Nat) : TxMap := List.filter (fun e => e.1 != k) m

/-- Ordered insertion of a map node (`map::insert(node)`, SQLite.cpp:1701): keeps the keys
sorted, and does nothing if the key is already there. -/
def TxMap.insertSorted (m : TxMap) (e : Nat × (Bytes × Bytes)) : TxMap :=
  match m with
  | [] => [e]
  | x :: xs =>
    if e.1 < x.1 then e :: x :: xs
    else if e.1 = x.1 then x :: xs
    else x :: TxMap.insertSorted xs e

/-- The whole process: `SharedData` (SQLite.h:380-440), all handles, and the durable journal
tables. -/
structure Sys where
  /-- `SharedData::commitCount` -/
  commitCount : Nat
  /-- `SharedData::lastCommittedHash` -/
  lastHash : Bytes
  /-- `SharedData::_commitEnabled` -/
  commitEnabled : Bool
  /-- `SharedData::commitLock`, a `recursive_timed_mutex`: owner and recursion depth -/
  lock : Option (Nat × Nat)
  /-- `SharedData::nextJournalCount` -/
  nextJournal : Nat
  /-- `SharedData::_preparedTransactions` -/
  prepared : TxMap
  /-- `SharedData::_committedTransactions` -/
  committed : TxMap
  /-- all handles -/
  handles : Nat → Handle
  /-- durable content of the journal tables, by table index -/
  tables : Nat → List Row

/-- Operations on the database layer together with the nondeterministic outcome of the parts
that are not modelled (SQLite, timeouts). -/
inductive Op where
  /-- `beginTransaction(EXCLUSIVE | SHARED)`; `sync`: called on the sync thread (bounded wait);
  `ok`: result of the SQL `BEGIN` -/
  | begin (h : Nat) (exclusive : Bool) (sync : Bool) (ok : Bool)
  /-- a write; `q` is the expanded SQL, `keep` whether it changed something or is
  `writeUnmodified` (SQLite.cpp:921), `ok` whether the statement succeeded -/
  | write (h : Nat) (q : Bytes) (keep : Bool) (ok : Bool)
  /-- `prepare`; `wait`: the lock is granted if free (else timeout or abort), `pick`: the order
  in which `DELETE … LIMIT 10` visits rows, `ok`: the journal `INSERT` succeeds -/
  | prepare (h : Nat) (wait : Bool) (pick : List Nat) (ok : Bool)
  /-- `commit`; `ok = false` is `SQLITE_BUSY_SNAPSHOT` -/
  | commit (h : Nat) (ok : Bool)
  | rollback (h : Nat)
  /-- `setCommitEnabled`, called on thread `t` -/
  | setCommitEnabled (t : Nat) (enable : Bool)
  /-- `popCommittedTransactions` -/
  | pop
  /-- the process dies and is started again on the same file -/
  | crash
  /-- the process dies inside `commit`, after SQLite's `COMMIT` reached the disk but before
  any of the in-memory bookkeeping (SQLite.cpp:1107 vs. 1155), and is started again -/
  | crashInCommit (h : Nat)
deriving DecidableEq, Repr

/-- What the caller observes. -/
inductive Out where
  | done
  /-- the boolean result was `false`, or an exception was thrown; no effect promised -/
  | failed
  /-- the thread is still waiting for the commit lock: the call has not happened yet -/
  | blocked
  /-- `commit` returned `SQLITE_OK` -/
  | committed
  /-- `commit` returned `SQLITE_BUSY_SNAPSHOT` -/
  | conflict
  /-- `commit` returned `COMMIT_DISABLED` -/
  | disabled
  /-- the transactions handed to replication -/
  | popped (m : TxMap)
  /-- an assertion failed: the process aborts -/
  | abort
deriving DecidableEq, Repr

/-- Whether thread `t` may take the recursive commit lock now. -/
def lockFree (s : Sys) (t : Nat) : Bool :=
  match s.lock with
  | none => true
  | some (o, _) => o == t

/-- `commitLock.lock()` by thread `t` when allowed. -/
def lockAcquire (s : Sys) (t : Nat) : Sys :=
  match s.lock with
  | none => { s with lock := some (t, 1) }
  | some (o, n) => { s with lock := some (o, n + 1) }

/-- `commitLock.unlock()`. (Unlocking a mutex that is not held is undefined behaviour in C++;
`Props/DB` shows it never happens.) -/
def lockRelease (s : Sys) : Sys :=
  match s.lock with
  | some (o, n + 2) => { s with lock := some (o, n + 1) }
  | _ => { s with lock := none }

/-- `SQLite::rollback` (SQLite.cpp:1253-1305). -/
def rollback (s : Sys) (h : Nat) : Sys :=
  let hd := s.handles h
  if hd.inside then
    let hd' := { hd with inside := false, uhash := [], uquery := [], locked := false,
                         pending := none, trims := [] }
    let s1 := { s with handles := upd s.handles h hd' }
    if hd.locked then lockRelease s1 else s1
  else s

/-- Rows of all journal tables; the `UNION` of `_getJournalQuery` (SQLite.cpp:452-460). -/
def allRows (env : Env) (tables : Nat → List Row) : List Row :=
  (List.range env.numJournals).flatMap tables

/-- `SELECT MAX(id)` over all journal tables, `0` if there is none (SQLite.cpp:94-97). -/
def maxId (env : Env) (tables : Nat → List Row) : Nat :=
  (allRows env tables).foldl (fun m r => max m r.id) 0

/-- `SQLite::getCommit` (SQLite.cpp:1329-1347): first row with this id, if any. -/
def getCommit (env : Env) (tables : Nat → List Row) (id : Nat) : Option Row :=
  (allRows env tables).find? (fun r => r.id == id)

/-- `SQLite::initializeSharedData` (SQLite.cpp:62-116) on a fresh process. -/
def restart (env : Env) (tables : Nat → List Row) : Sys :=
  let n := maxId env tables
  { commitCount := n
    lastHash := match getCommit env tables n with
                | some r => r.hash
                | none => []
    commitEnabled := true
    lock := none
    nextJournal := 0
    prepared := []
    committed := []
    handles := fun _ => {}
    tables := tables }

/-- `SQLite::beginTransaction` (SQLite.cpp:517-580). -/
def begin' (s : Sys) (h : Nat) (exclusive sync ok : Bool) : Sys × Out :=
  if exclusive && !lockFree s h then
    -- the sync thread gives up after 5s with "512 Internal Lock Timeout", others wait
    (s, if sync then .failed else .blocked)
  else
    let s1 := if exclusive then
        let s0 := lockAcquire s h
        { s0 with handles := upd s0.handles h { s0.handles h with locked := true } }
      else s
    let hd := s1.handles h
    if hd.inside || !hd.uhash.isEmpty || !hd.uquery.isEmpty then
      (rollback s1 h, .failed)
    else
      ({ s1 with handles := upd s1.handles h { hd with inside := ok } },
        if ok then .done else .failed)

/-- `SQLite::_writeIdempotent` (SQLite.cpp:853-927); a constraint error, a failing statement and
a call outside a transaction all report failure and keep nothing. -/
def write (s : Sys) (h : Nat) (q : Bytes) (keep ok : Bool) : Sys × Out :=
  let hd := s.handles h
  if hd.inside && ok then
    let hd' := { hd with uquery := if keep then hd.uquery ++ q else hd.uquery }
    ({ s with handles := upd s.handles h hd' }, .done)
  else (s, .failed)

/-- `oldestCommitToKeep` (SQLite.cpp:949): unsigned subtraction guarded against wrap-around. -/
def oldestToKeep (env : Env) (commitCount : Nat) : Nat :=
  if commitCount < env.maxJournalSize then 0 else commitCount - env.maxJournalSize

/-- `SELECT MIN(id)`, an empty table giving `0` (SQLite.cpp:938-940). -/
def minEntry (rows : List Row) : Nat :=
  match rows.map Row.id with
  | [] => 0
  | x :: xs => xs.foldl min x

/-- `DELETE FROM journal WHERE id < oldest LIMIT 10` (SQLite.cpp:951-958): which row ids of
table `t` go; `pick` is the order in which SQLite visits them. -/
def trimIds (env : Env) (s : Sys) (t : Nat) (pick : List Nat) : List Nat :=
  if minEntry (s.tables t) < oldestToKeep env s.commitCount then
    (pick.filter (fun i => ((s.tables t).map Row.id).contains i &&
                           i < oldestToKeep env s.commitCount)).take 10
  else []

/-- The (possibly compressed) query stored in the journal and shipped to peers
(SQLite.cpp:1048-1055). -/
def stored (env : Env) (q : Bytes) : Bytes := if q.isEmpty then q else env.compress q

/-- `SQLite::prepare` (SQLite.cpp:929-1077). -/
def prepare (env : Env) (s : Sys) (h : Nat) (wait : Bool) (pick : List Nat) (ok : Bool) :
    Sys × Out :=
  let hd := s.handles h
  if !hd.inside then (s, .abort)                       -- SASSERT(_insideTransaction)
  else
    let t := s.nextJournal % env.numJournals
    let ids := trimIds env s t pick
    let s1 := { s with nextJournal := s.nextJournal + 1
                       handles := upd s.handles h { hd with trims := (t, ids) :: hd.trims } }
    if !hd.locked && !(wait && lockFree s1 h) then (s1, .failed)  -- timeout or abort: no rollback
    else
      let s2 := if hd.locked then s1
        else
          let s' := lockAcquire s1 h
          { s' with handles := upd s'.handles h { s'.handles h with locked := true } }
      let hd2 := s2.handles h
      let hash := env.sha1hex (s2.lastHash ++ hd2.uquery)
      let q := stored env hd2.uquery
      let row : Row := { id := s2.commitCount + 1, query := q, hash := hash }
      let s3 := { s2 with
        prepared := s2.prepared.insertOrAssign (s2.commitCount + 1) (q, hash)
        handles := upd s2.handles h
          { hd2 with uhash := hash, uquery := q, pending := some (t, row) } }
      if ok then (s3, .done) else (rollback s3 h, .failed)

/-- Effect of the open transaction's journal changes on the durable tables. -/
def applyJournal (tables : Nat → List Row) (trims : List (Nat × List Nat))
    (ins : Option (Nat × Row)) : Nat → List Row :=
  let t1 := trims.foldl
    (fun tb e => upd tb e.1 ((tb e.1).filter (fun r => !e.2.contains r.id))) tables
  match ins with
  | none => t1
  | some (t, r) => upd t1 t (t1 t ++ [r])

/-- `SharedData::incrementCommit` + `commitTransactionInfo` (SQLite.cpp:1684-1702). -/
def incrementCommit (s : Sys) (hash : Bytes) : Sys :=
  let n := s.commitCount + 1
  { s with
    commitCount := n
    committed := match s.prepared.find n with
      | some e => s.committed.insertSorted e
      | none => s.committed            -- inserting an empty node handle does nothing
    prepared := s.prepared.eraseKey n
    lastHash := hash }

/-- `SQLite::commit` (SQLite.cpp:1079-1229). -/
def commit (s : Sys) (h : Nat) (ok : Bool) : Sys × Out :=
  if !s.commitEnabled then (s, .disabled)
  else
    let hd := s.handles h
    if !hd.inside || hd.uhash.isEmpty then (s, .abort)   -- the two SASSERTs
    else if ok then
      let s1 := { s with tables := applyJournal s.tables hd.trims hd.pending }
      let s2 := incrementCommit s1 hd.uhash
      let hd' := { hd with inside := false, uhash := [], uquery := [], locked := false,
                           pending := none, trims := [] }
      let s3 := { s2 with handles := upd s2.handles h hd' }
      (lockRelease s3, .committed)
    else (s, .conflict)

/-- One operation of the database layer. A failed assertion kills the process, which is the
same as a crash. -/
def step (env : Env) (s : Sys) (op : Op) : Sys × Out :=
  let r := match op with
    | .begin h e sy ok => begin' s h e sy ok
    | .write h q k ok => write s h q k ok
    | .prepare h w p ok => prepare env s h w p ok
    | .commit h ok => commit s h ok
    | .rollback h => (rollback s h, .done)
    | .setCommitEnabled t e =>
        -- SharedData::setCommitEnabled (SQLite.cpp:1673-1682): early exit without the lock
        if s.commitEnabled = e then (s, .done)
        else if lockFree s t then ({ s with commitEnabled := e }, .done)
        else (s, .blocked)
    | .pop => ({ s with committed := [] }, .popped s.committed)
    | .crash => (restart env s.tables, .done)
    | .crashInCommit h =>
        -- nobody is told anything; `.committed` here only records that the row is on disk
        let r := commit s h true
        (restart env r.1.tables, if r.2 = .committed then .committed else .done)
  if r.2 = .abort then (restart env s.tables, .abort) else r

/-- Run a list of operations, collecting the observable trace. -/
def run (env : Env) (s : Sys) : List Op → Sys × List (Op × Out)
  | [] => (s, [])
  | op :: ops =>
    let r := step env s op
    let rest := run env r.1 ops
    (rest.1, (op, r.2) :: rest.2)

/-- A new, empty database. -/
def init (env : Env) : Sys := restart env (fun _ => [])

end Bedrock.DB
