/-!
# Time limits and abort of queries

`SQLite::setTimeout`, `clearTimeout` (SQLite.cpp:1569-1586), `setAbortRef`, `clearAbortRef` (382-390),
`_progressHandlerCallback` (360-380), `_checkInterruptErrors` (725-752) and the calls that use them: `read` with its cache
(653-723), `_writeIdempotent` (852-927), `getCompressedCommits` (1354-1368).  SQLite calls the handler every 100000
instructions (311) and gives up the query with `SQLITE_INTERRUPT` when it does not return 0; then `SQuery` neither goes on
with the next statement nor tries again (libstuff.cpp:2862, 3030-3045).  When this happens, and what clock and flag are
then, is up to the environment.  What statements do is in `Model/Handle.lean`; here they have rows and a result code.
-/

namespace Bedrock.Interrupt

/-- `_timeoutLimit`, `_timeoutStart`, `_timeoutError`, and whether `_shouldAbortPtr` is set (SQLite.h:569-574). -/
structure T where
  limit : UInt64 := 0
  start : UInt64 := 0
  error : UInt64 := 0
  ref : Bool := false
deriving DecidableEq, Repr

/-- What a check of the limits sees: `STimeNow()` and the flag behind `_shouldAbortPtr`. -/
structure Reading where
  now : UInt64
  flag : Bool := false
deriving DecidableEq, Repr

/-- `setTimeout`, SQLite.cpp:1574-1579. -/
def T.setTimeout (t : T) (now us : UInt64) : T := { t with start := now, limit := now + us, error := 0 }
/-- `clearTimeout`, SQLite.cpp:1581-1586. -/
def T.clearTimeout (t : T) : T := { t with limit := 0, start := 0, error := 0 }
/-- `setAbortRef`, `clearAbortRef`, SQLite.cpp:382-390. -/
def T.setAbortRef (t : T) : T := { t with ref := true }
def T.clearAbortRef (t : T) : T := { t with ref := false }

/-- `_progressHandlerCallback`, SQLite.cpp:360-380; `true`: the query is given up. -/
def callback (t : T) (r : Reading) : T × Bool :=
  if t.limit ≠ 0 ∧ r.now > t.limit then ({ t with error := r.now - t.start }, true)
  else (t, t.ref && r.flag)

/-- The calls of the handler before the next row. -/
def ticks (t : T) : List Reading → T × Bool
  | [] => (t, false)
  | r :: rs => match callback t r with
    | (t', true) => (t', true)
    | (t', false) => ticks t' rs

/-- `SQLITE_INTERRUPT`, `SQLITE_CONSTRAINT`. -/
def interrupt : Nat := 9
def constraint : Nat := 19

variable {Q R : Type}

/-- A statement as the database runs it if nothing stops it: its rows and its result code. -/
structure Stmt (R : Type) where
  rows : List R
  code : Nat := 0

/-- Steps through one statement, libstuff.cpp:2967-3015; `env j`: the calls of the handler before row `j`. -/
def runStmt (env : Nat → List Reading) (code : Nat) : (j : Nat) → List R → T → T × List R × Nat
  | j, [], t => match ticks t (env j) with
    | (t, true) => (t, [], interrupt)
    | (t, false) => (t, [], code)
  | j, r :: rs, t => match ticks t (env j) with
    | (t, true) => (t, [], interrupt)
    | (t, false) => match runStmt env code (j + 1) rs t with
      | (t, out, c) => (t, r :: out, c)

/-- `SQuery`, libstuff.cpp:2862-3043: the statements in order up to the first that does not succeed. -/
def runQuery (env : Nat → Nat → List Reading) : (i : Nat) → List (Stmt R) → T → T × List R × Nat
  | _, [], t => (t, [], 0)
  | i, s :: ss, t => match runStmt (env i) s.code 0 s.rows t with
    | (t, out, 0) => match runQuery env (i + 1) ss t with
      | (t, out', c) => (t, out ++ out', c)
    | (t, out, c) => (t, out, c)

/-- What `_checkInterruptErrors` throws. -/
inductive Exc where
  /-- `timeout_error` with its time -/
  | timeout (us : UInt64)
  /-- 499 Client Disconnected -/
  | gone
deriving DecidableEq, Repr

/-- `_checkInterruptErrors`, SQLite.cpp:725-752. -/
def check (t : T) (r : Reading) : T × Option Exc :=
  let t := if t.limit ≠ 0 ∧ r.now > t.limit then { t with error := r.now - t.start } else t
  (t, if t.ref && r.flag then some .gone
      else if t.limit ≠ 0 ∧ t.error ≠ 0 then some (.timeout t.error)
      else none)

inductive Ans (R : Type) where
  | ok (rows : List R)
  /-- the call returned `false` -/
  | failed
  | threw (e : Exc)
  /-- `constraint_error` -/
  | constraint
deriving DecidableEq, Repr

/-- A handle: its limits, `_queryCache`, and whether it is in a transaction. -/
structure H (Q R : Type) where
  t : T := {}
  cache : List (Q × List R) := []
  inside : Bool := false

/-- Everything a call meets: the calls of the handler, the check at the end, and whether `_isDeterministicQuery` and an
empty map of parameters allow the cache. -/
structure Env where
  env : Nat → Nat → List Reading := fun _ _ => []
  last : Reading := ⟨0, false⟩
  cacheable : Bool := true

/-- `read`, SQLite.cpp:691-723; `db q`: the statements of `q` on the database as it is. -/
def read [DecidableEq Q] (db : Q → List (Stmt R)) (h : H Q R) (q : Q) (e : Env) : H Q R × Ans R :=
  match (if e.cacheable then h.cache.find? (fun c => c.1 = q) else none) with
  | some c =>
    match check h.t e.last with
    | (t, some x) => ({ h with t := t }, .threw x)
    | (t, none) => ({ h with t := t }, .ok c.2)
  | none =>
    match runQuery e.env 0 (db q) h.t with
    | (t, rows, code) =>
      let cache := if e.cacheable && code = 0 && h.inside then h.cache ++ [(q, rows)] else h.cache
      match check t e.last with
      | (t, some x) => ({ h with t := t, cache := cache }, .threw x)
      | (t, none) => ({ h with t := t, cache := cache }, if code = 0 then .ok rows else .failed)

/-- `_writeIdempotent` in a transaction, SQLite.cpp:852-927. -/
def write (db : Q → List (Stmt R)) (h : H Q R) (q : Q) (e : Env) : H Q R × Ans R :=
  match runQuery e.env 0 (db q) h.t with
  | (t, rows, code) =>
    if code = constraint then ({ h with t := t, cache := [] }, .constraint)
    else match check t e.last with
      | (t, some x) => ({ h with t := t, cache := [] }, .threw x)
      | (t, none) => ({ h with t := t, cache := [] }, if code = 0 then .ok rows else .failed)

/-- `getCompressedCommits`, SQLite.cpp:1354-1368: the rows and the code.  A limit of 0 is no limit of its own. -/
def getCommits (db : Q → List (Stmt R)) (t : T) (q : Q) (now us : UInt64) (e : Env) : T × List R × Nat :=
  match runQuery e.env 0 (db q) (if us ≠ 0 then t.setTimeout now us else t) with
  | (t, rows, code) => (t.clearTimeout, rows, code)

end Bedrock.Interrupt
