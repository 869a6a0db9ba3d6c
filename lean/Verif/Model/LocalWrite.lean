import Verif.Model.DB

/-!
# Writes of one node only, and the data under the journal

`SQLite::writeLocalUnreplicated` (SQLite.cpp:823-851, SQLite.h:165-168) changes the database of one node and leaves
nothing for the others: no journal row, no commit number, no hash.  This puts the user's data under `Model/DB`: pages, a
SQLite transaction on every handle with what it started from, what it made of it and what it looked at, and the way
SQLite's `COMMIT` of a `BEGIN CONCURRENT` transaction is decided.  Threads are interleaved between the calls to SQLite.

Simplified: a statement that fails leaves the pages as they were (of a text of several statements the earlier ones
remain, see C65); the pages of the journal tables are not among those modelled, `Model/DB` has their rows; a `COMMIT` may
also fail where the pages would allow it (`luck`), as SQLite does when a page was written again with the same content.
The write lock that `BlockWrites` takes is in `Model/Locks.lean`.
-/

namespace Bedrock.LocalWrite
open Bedrock

/-- The pages of the user's tables, by number. -/
abbrev Data := Nat → Nat

/-- SQLite, as far as a text of statements goes. -/
structure Sqlite where
  /-- how many pages there can be -/
  pages : Nat
  /-- what becomes of the data; outside if a statement fails -/
  eval : Bytes → Data → Option Data
  /-- the pages that are read or written on the way -/
  touch : Bytes → Data → Nat → Bool
  /-- `sqlite3_total_changes` or `PRAGMA schema_version` is larger afterwards (SQLite.cpp:867-868, 914-921) -/
  changes : Bytes → Data → Bool

/-- A transaction of SQLite on a connection. -/
structure Tx where
  base : Data
  mine : Data
  seen : Nat → Bool

/-- The process: the database layer, the pages on disk, the transaction SQLite has open for each handle, and the handles on
which a thread is inside `writeLocalUnreplicated`, with whether its text has gone well so far. -/
structure St where
  sys : DB.Sys
  data : Data
  tx : Nat → Option Tx
  loc : Nat → Option Bool

/-- A statement of the text given to `writeLocalUnreplicated`. -/
inductive Piece where
  | sql (q : Bytes)
  /-- `COMMIT;` in the text; `luck` as below -/
  | commit (luck : Bool)
  /-- `ROLLBACK;` in the text -/
  | rollback
deriving DecidableEq, Repr

/-- What threads do, one call to SQLite at a time.  The first nine are those of `DB.Op`, without the outcomes that are now
decided by the data. -/
inductive Op where
  | begin (h : Nat) (exclusive sync ok : Bool)
  /-- `always`: `writeUnmodified`, or a statement that counts a change and makes none -/
  | write (h : Nat) (q : Bytes) (always : Bool)
  | prepare (h : Nat) (wait : Bool) (pick : List Nat) (ok : Bool)
  | commit (h : Nat) (luck : Bool)
  | rollback (h : Nat)
  | setCommitEnabled (t : Nat) (enable : Bool)
  | pop
  | crash
  | crashInCommit (h : Nat)
  /-- `writeLocalUnreplicated` is called and runs `BEGIN CONCURRENT` (SQLite.cpp:826-838) -/
  | lbegin (h : Nat) (ok : Bool)
  /-- its text, statement by statement (SQLite.cpp:840) -/
  | lrun (h : Nat) (x : Piece)
  /-- `COMMIT`, `ROLLBACK` if that fails, and the return (SQLite.cpp:841-850) -/
  | lend (h : Nat) (luck : Bool)
deriving DecidableEq, Repr

/-- What is observed. -/
inductive Out where
  /-- a call on the database layer, as it saw it -/
  | db (o : DB.Op) (r : DB.Out)
  /-- the call of `writeLocalUnreplicated` returned -/
  | local' (b : Bool)
  /-- it goes on -/
  | going
  /-- a statement of its text was not run, or failed -/
  | bad
  /-- not possible now: the thread that has the handle is inside `writeLocalUnreplicated`, or is not -/
  | never
deriving DecidableEq, Repr

/-- Whether `COMMIT` finds every page the transaction looked at as it was. -/
def fits (q : Sqlite) (t : Tx) (now : Data) : Bool :=
  (List.range q.pages).all fun p => !t.seen p || now p == t.base p

/-- The pages after it. -/
def merged (t : Tx) (now : Data) : Data := fun p => if t.seen p then t.mine p else now p

/-- `COMMIT` on a connection: the pages afterwards, if it succeeds. -/
def commitTx (q : Sqlite) (t : Option Tx) (now : Data) (luck : Bool) : Option Data :=
  match t with
  | none => none
  | some t => if fits q t now && luck then some (merged t now) else none

/-- A text on a connection with an open transaction: the flag tells whether it went well. -/
def exec (q : Sqlite) (t : Tx) (text : Bytes) : Tx × Bool :=
  let seen := fun p => t.seen p || q.touch text t.mine p
  match q.eval text t.mine with
  | some m => ({ t with mine := m, seen := seen }, true)
  | none => ({ t with seen := seen }, false)

/-- A transaction that has just begun. -/
def fresh (d : Data) : Tx := { base := d, mine := d, seen := fun _ => false }

/-- Whether a call ends the process. -/
def ends (o : DB.Op) (r : DB.Out) : Bool :=
  r == .abort || (match o with | .crash | .crashInCommit _ => true | _ => false)

/-- A call on the database layer, with what it does to the pages and to its own transaction if it gets there.  A handle
that is not inside a transaction afterwards has none in SQLite either, but for one inside `writeLocalUnreplicated`. -/
def dbStep (env : DB.Env) (st : St) (o : DB.Op) (data : DB.Out → Data) (tx : DB.Out → Nat → Option Tx) : St × Out :=
  let r := DB.step env st.sys o
  let gone := ends o r.2
  ({ sys := r.1
     data := data r.2
     tx := fun k =>
      if (r.1.handles k).inside then tx r.2 k
      else if (st.loc k).isSome && !gone then st.tx k
      else none
     loc := fun k => if gone then none else st.loc k },
   .db o r.2)

/-- One step. -/
def step (env : DB.Env) (q : Sqlite) (st : St) : Op → St × Out
  | .begin h e sy ok =>
    if (st.loc h).isSome then (st, .never)
    else
      -- `BEGIN` inside a transaction is an error
      dbStep env st (.begin h e sy (ok && (st.tx h).isNone)) (fun _ => st.data)
        (fun r => if r = .done then upd st.tx h (some (fresh st.data)) else st.tx)
  | .write h text always =>
    if (st.loc h).isSome then (st, .never)
    else match st.tx h with
      | none => dbStep env st (.write h text always false) (fun _ => st.data) (fun _ => st.tx)
      | some t =>
        let x := exec q t text
        dbStep env st (.write h text (always || q.changes text t.mine) x.2) (fun _ => st.data)
          (fun _ => upd st.tx h (some x.1))
  | .prepare h w p ok =>
    if (st.loc h).isSome then (st, .never)
    else dbStep env st (.prepare h w p ok) (fun _ => st.data) (fun _ => st.tx)
  | .commit h luck =>
    if (st.loc h).isSome then (st, .never)
    else
      let c := commitTx q (st.tx h) st.data luck
      dbStep env st (.commit h c.isSome) (fun r => if r = .committed then c.getD st.data else st.data) (fun _ => st.tx)
  | .rollback h =>
    if (st.loc h).isSome then (st, .never)
    else dbStep env st (.rollback h) (fun _ => st.data) (fun _ => st.tx)
  | .setCommitEnabled t e => dbStep env st (.setCommitEnabled t e) (fun _ => st.data) (fun _ => st.tx)
  | .pop => dbStep env st .pop (fun _ => st.data) (fun _ => st.tx)
  | .crash => dbStep env st .crash (fun _ => st.data) (fun _ => st.tx)
  | .crashInCommit h =>
    match commitTx q (st.tx h) st.data true with
    | none => dbStep env st .crash (fun _ => st.data) (fun _ => st.tx)
    | some d => dbStep env st (.crashInCommit h) (fun r => if r = .committed then d else st.data) (fun _ => st.tx)
  | .lbegin h ok =>
    if (st.loc h).isSome then (st, .never)
    -- SQLite.cpp:826-829
    else if (st.sys.handles h).inside then (st, .local' false)
    -- SQLite.cpp:835-838
    else if !(ok && (st.tx h).isNone) then (st, .local' false)
    else ({ st with
      tx := upd st.tx h (some (fresh st.data))
      loc := upd st.loc h (some true) }, .going)
  | .lrun h x =>
    match st.loc h with
    | none => (st, .never)
    | some false => (st, .bad)
    | some true =>
      let fail : St × Out := ({ st with loc := upd st.loc h (some false) }, .bad)
      match x, st.tx h with
      | .sql text, some t =>
        let r := exec q t text
        ({ st with
          tx := upd st.tx h (some r.1)
          loc := upd st.loc h (some r.2) }, if r.2 then .going else .bad)
      | .sql text, none =>
        -- no transaction any more: the statement commits by itself
        match q.eval text st.data with
        | some d => ({ st with data := d }, .going)
        | none => fail
      | .commit luck, t =>
        match commitTx q t st.data luck with
        | some d => ({ st with
            data := d
            tx := upd st.tx h none }, .going)
        | none => fail
      | .rollback, some _ => ({ st with tx := upd st.tx h none }, .going)
      | .rollback, none => fail
  | .lend h luck =>
    match st.loc h with
    | none => (st, .never)
    | some ok =>
      -- `ROLLBACK`, whose result nobody looks at, if the text or `COMMIT` failed
      let out := { st with
        tx := upd st.tx h none
        loc := upd st.loc h none }
      match (if ok then commitTx q (st.tx h) st.data luck else none) with
      | some d => ({ out with data := d }, .local' true)
      | none => (out, .local' false)

/-- A run: what was called and what was observed. -/
def run (env : DB.Env) (q : Sqlite) : St → List Op → St × List (Op × Out)
  | st, [] => (st, [])
  | st, o :: os =>
    let r := step env q st o
    let rest := run env q r.1 os
    (rest.1, (o, r.2) :: rest.2)

/-- A node with these pages and an empty journal. -/
def init (env : DB.Env) (d : Data) : St :=
  { sys := DB.init env, data := d, tx := fun _ => none, loc := fun _ => none }

end Bedrock.LocalWrite
