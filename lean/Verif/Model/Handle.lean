import Verif.Model.Basic

/-!
# One database handle: queries, query cache, authorizer, no-op mode, recorded text

Models `SQLite::read`, `write`, `writeIdempotent`, `writeUnmodified`, `_writeIdempotent`, `_authorize`,
`setUpdateNoopMode`, `setQueryOnly`, `setAuthorizer`, `enableRewrite` of `sqlitecluster/SQLite.cpp`, the statement loop
of `SQuery` in `libstuff/libstuff.cpp`, and what a follower does with the recorded text.

Simplifications, for the whole file:

* SQLite is a parameter (`Engine`): what a statement does to the data, and which authorizer actions it raises when it
  is prepared.  A query is the list of its statements.
* Bound parameters are part of the statement; `Engine.expand` is the statement with the values written out.  The query
  cache is skipped for queries with parameters; here it is keyed by the statements with their values.
* One node: other threads' commits are `Op.external` and make a commit of an open transaction conflict (SQLite also
  accepts disjoint changes; then the outcome is that of running one after the other).
* The hash, the journal and the commit lock are in `Model/DB.lean`.
* An interrupted statement throws; callers roll back (`BedrockCore`).
-/

namespace Bedrock.Handle
open Bedrock

/-- Authorizer actions, grouped as the `switch` in `_authorize` does, SQLite.cpp:1488-1566. -/
inductive Action where
  | read (table column : String)
  | function (name : String)
  | pragma (name : String) (arg : Option String)
  | insert (table : String)
  | update (table column : String)
  | delete (table : String)
  /-- `SELECT` and `ANALYZE` -/
  | select
  /-- the create, drop, alter, attach, detach, transaction, savepoint, … group -/
  | schema (code : Nat)
  /-- an action code the `switch` does not know -/
  | unknown (code : Nat)
  deriving DecidableEq, Repr

inductive Code where
  | auth | constraint | busy | snapshot | error
  deriving DecidableEq, Repr

/-- What one statement did: succeeded (with new data, rows, and whether `total_changes` or the schema version moved),
or failed, possibly leaving changes behind. -/
inductive Res (D R : Type) where
  | ok (d : D) (rows : R) (changed : Bool)
  | fail (code : Code) (d : D)

/-- What a statement may depend on besides the data. -/
structure Ctx where
  /-- `PRAGMA noop_update` -/
  noop : Bool
  /-- `PRAGMA query_only` -/
  queryOnly : Bool
  /-- clock, random numbers, counters of the connection -/
  vol : Nat
  /-- columns that read as NULL (`SQLITE_IGNORE`) -/
  hidden : List (String × String)
  deriving DecidableEq, Repr

/-- SQLite. -/
structure Engine (D S R : Type) where
  acts : S → List Action
  exec : S → Ctx → D → Res D R
  /-- `sqlite3_expanded_sql` -/
  expand : S → S

/-- A piece of the recorded text `_uncommittedQuery`. -/
inductive Item (S : Type) where
  | stmt (s : S)
  /-- `PRAGMA noop_update=ON/OFF;` -/
  | noop (on : Bool)
  deriving DecidableEq, Repr

structure H (D S R : Type) where
  /-- `_insideTransaction` -/
  inside : Bool := false
  /-- what this connection sees -/
  data : D
  /-- the committed database -/
  base : D
  /-- someone else committed since `begin` -/
  moved : Bool := false
  /-- `_uncommittedQuery` -/
  pending : List (Item S) := []
  /-- `_noopUpdateMode` -/
  noop : Bool := false
  /-- the pragma as SQLite has it -/
  dbNoop : Bool := false
  queryOnly : Bool := false
  /-- `_queryCache` -/
  cache : List (List S × List R) := []
  /-- `whitelist` -/
  whitelist : Option (List (String × List String)) := none
  /-- `_authorizer` -/
  authorizer : Option (Action → Bool) := none
  /-- `_rewriteHandler` if `_enableRewrite` -/
  rewrite : Option (Action → Option (List S)) := none
  /-- `_rewrittenQuery`; empty until a handler first sets it, and never cleared -/
  rewritten : List S := []
  /-- `_currentlyWriting` -/
  writing : Bool := false

inductive Verdict where
  | ok | deny | ignore
  deriving DecidableEq, Repr

/-- Functions that keep a result out of the cache, SQLite.cpp:1449-1460. -/
def uncached : List String :=
  ["random", "date", "time", "datetime", "julianday", "strftime", "changes", "last_insert_rowid", "sqlite_version"]

/-- Functions refused in writes, SQLite.cpp:1466-1474. -/
def refusedInWrites : List String :=
  ["current_timestamp", "random", "last_insert_rowid", "changes", "sqlite_version"]

/-- `SToLower` of a pragma name. -/
def lower (s : String) : String := s.map Char.toLower

/-- The whitelist part of `_authorize`, SQLite.cpp:1484-1567. -/
def whitelisted (w : List (String × List String)) : Action → Verdict
  | .schema _ => .deny
  | .insert _ => .deny
  | .update _ _ => .deny
  | .delete _ => .deny
  | .select => .ok
  | .function _ => .ok
  | .pragma n a => if lower n = "schema_version" ∧ a = none then .ok else .deny
  | .read t c =>
    match w.find? (fun e => e.1 = t) with
    | some e => if e.2.contains c then .ok else .ignore
    | none => .ignore
  | .unknown _ => .deny

/-- `_authorize` without the rewriting, SQLite.cpp:1442-1567.  `writing`: `_currentlyWriting`. -/
def authorize {D S R : Type} (h : H D S R) (writing : Bool) (a : Action) : Verdict :=
  let refused := match a with
    | .function n => writing && refusedInWrites.contains n
    | _ => false
  if refused then .deny
  else if (match h.authorizer with | some f => !f a | none => false) then .deny
  else match h.whitelist with
    | none => .ok
    | some w => whitelisted w a

/-- Outcome of preparing a statement. -/
inductive Prep (S : Type) where
  | go (hidden : List (String × String))
  | denied
  | rewrite (q : List S)

/-- The authorizer over all actions of a statement, with the rewriting check first, SQLite.cpp:1434-1440.
`running`: `_currentlyRunningRewritten`. -/
def prep {D S R : Type} (h : H D S R) (writing running : Bool) : List Action → Prep S
  | [] => .go []
  | a :: as =>
    match (if running then none else h.rewrite.bind fun f => f a) with
    | some q => .rewrite q
    | none =>
      match authorize h writing a with
      | .deny => .denied
      | v =>
        match prep h writing running as with
        | .go hid =>
          match v, a with
          | .ignore, .read t c => .go ((t, c) :: hid)
          | _, _ => .go hid
        | p => p

/-- Result of `SQuery`. -/
structure Out (D S R : Type) where
  d : D
  code : Option Code := none
  /-- set when a statement was denied in order to be rewritten -/
  rewrite : Option (List S) := none
  rows : List R := []
  /-- `expandedSql` -/
  text : List S := []
  /-- `total_changes` or the schema version moved -/
  changed : Bool := false

variable {D S R : Type}

/-- One walk over the statements, libstuff.cpp:2857-2991; `busy = some i`: statement `i` returns `SQLITE_BUSY`. -/
def runOnce (E : Engine D S R) (h : H D S R) (writing running : Bool) (vol : Nat) :
    Option Nat → List S → D → Out D S R
  | _, [], d => { d := d }
  | busy, s :: ss, d =>
    if busy = some 0 then { d := d, code := some .busy }
    else match prep h writing running (E.acts s) with
      | .denied => { d := d, code := some .auth }
      | .rewrite q => { d := d, code := some .auth, rewrite := some q }
      | .go hid =>
        match E.exec s { noop := h.dbNoop, queryOnly := h.queryOnly, vol := vol, hidden := hid } d with
        | .fail c d' => { d := d', code := some c }
        | .ok d' r ch =>
          let o := runOnce E h writing running vol (busy.map (· - 1)) ss d'
          { o with rows := r :: o.rows, text := E.expand s :: o.text, changed := ch || o.changed }

/-- `SQuery` with its retries on `SQLITE_BUSY`, libstuff.cpp:2825-3006: the whole query is run again, rows and text
start afresh, and what earlier statements did stays.  `busy`: where each attempt meets `SQLITE_BUSY`. -/
def squery (E : Engine D S R) (h : H D S R) (writing running : Bool) (vol : Nat) (q : List S) :
    (tries : Nat) → List (Option Nat) → D → Out D S R
  | 0, _, d => { d := d, code := some .busy }
  | n + 1, busy, d =>
    let o := runOnce E h writing running vol (busy.head?.getD none) q d
    if o.code = some .busy ∧ n ≠ 0 then
      let o' := squery E h writing running vol q n busy.tail o.d
      { o' with changed := o.changed || o'.changed }
    else o

inductive Ans (S R : Type) where
  | ok (rows : List R)
  /-- the call returned `false` -/
  | failed
  /-- an exception -/
  | thrown
  | constraint
  /-- an assertion ended the process -/
  | crash
  | conflict
  /-- the transaction and the text that goes to the followers -/
  | committed (text : List (Item S))
  deriving DecidableEq, Repr

/-- `write`, `writeIdempotent`, `writeUnmodified`. -/
inductive Kind where
  | plain | idempotent | unmodified
  deriving DecidableEq, Repr

/-- Everything that happens while a query runs and is not under its control. -/
structure Luck where
  vol : Nat := 0
  busy : List (Option Nat) := []
  /-- the deadline has passed or the client is gone when the query is done -/
  interrupted : Bool := false
  deriving DecidableEq, Repr

/-- `SQLite::read`, SQLite.cpp:691-723.  Nothing stops a statement that writes; outside a transaction it commits at
once. -/
def read (E : Engine D S R) [DecidableEq S] (q : List S) (l : Luck) (h : H D S R) : H D S R × Ans S R :=
  match h.cache.find? (fun e => e.1 = q) with
  | some e => (h, if l.interrupted then .thrown else .ok e.2)
  | none =>
    let o := squery E h h.writing false l.vol q 3 l.busy h.data
    let deterministic := q.all fun s => (E.acts s).all fun a =>
      match a with | .function n => !uncached.contains n | _ => true
    let h := { h with data := o.d, base := if h.inside then h.base else o.d, rewritten := o.rewrite.getD h.rewritten }
    match o.code with
    | none =>
      (if deterministic && h.inside then { h with cache := (q, o.rows) :: h.cache } else h,
       if l.interrupted then .thrown else .ok o.rows)
    | some _ => (h, if l.interrupted then .thrown else .failed)

/-- The query of a write, rewritten if the handler says so, SQLite.cpp:880-899: the outcome and `_rewrittenQuery`.
`none`: `SASSERT(SEndsWith(_rewrittenQuery, ";"))` ends the process.  A denial for any other reason also runs
`_rewrittenQuery`, whatever it holds. -/
def writeQuery (E : Engine D S R) (q : List S) (l : Luck) (h : H D S R) : Option (Out D S R × List S) :=
  let o1 := squery E h true false l.vol q 3 l.busy h.data
  let rewritten := o1.rewrite.getD h.rewritten
  if h.rewrite.isSome ∧ o1.code = some .auth then
    if rewritten.isEmpty then none
    else
      let o2 := squery E h true true l.vol rewritten 3 [] o1.d
      some ({ o2 with rows := o1.rows, changed := o1.changed || o2.changed }, rewritten)
  else some (o1, rewritten)

/-- The rest of a write, SQLite.cpp:901-926. -/
def finishWrite (keep : Bool) (l : Luck) (o : Out D S R) (h : H D S R) : H D S R × Ans S R :=
  if o.code = some .constraint then ({ h with writing := false }, .constraint)
  else if l.interrupted then ({ h with writing := true }, .thrown)
  else match o.code with
    | some _ => ({ h with writing := false }, .failed)
    | none =>
      ({ h with writing := false,
                pending := if keep || o.changed then h.pending ++ o.text.map .stmt else h.pending },
       .ok o.rows)

/-- `_writeIdempotent`, SQLite.cpp:853-927. -/
def writeIdempotent (E : Engine D S R) (keep : Bool) (q : List S) (l : Luck) (h : H D S R) : H D S R × Ans S R :=
  if !h.inside then (h, .thrown)
  else
    -- SASSERT(!SQuery(_db, "PRAGMA schema_version;", results))
    match prep h h.writing false [.pragma "schema_version" none] with
    | .go _ =>
      match writeQuery E q l h with
      | none => ({ h with cache := [] }, .crash)
      | some (o, rewritten) => finishWrite keep l o { h with cache := [], data := o.d, rewritten := rewritten }
    | _ => ({ h with cache := [] }, .crash)

/-- `SQLite::write` and its variants, SQLite.cpp:758-821. -/
def write (E : Engine D S R) (k : Kind) (q : List S) (l : Luck) (h : H D S R) : H D S R × Ans S R :=
  match k with
  | .plain => if h.noop then (h, .ok []) else writeIdempotent E false q l h
  | .idempotent => writeIdempotent E false q l h
  | .unmodified => writeIdempotent E true q l h

/-- Whether a pragma the handle runs itself gets past the authorizer; a refusal is not noticed. -/
def pragmaAllowed (h : H D S R) (name arg : String) : Bool :=
  match prep h h.writing false [.pragma name (some arg)] with
  | .go _ => true
  | _ => false

/-- `setUpdateNoopMode`, SQLite.cpp:1588-1604. -/
def setNoop (on : Bool) (h : H D S R) : H D S R :=
  if h.noop = on then h
  else
    { h with
      dbNoop := if pragmaAllowed h "noop_update" (if on then "ON" else "OFF") then on else h.dbNoop
      noop := on
      pending := if h.inside then h.pending ++ [.noop on] else h.pending }

/-- `setQueryOnly`, SQLite.cpp:1645-1650. -/
def setQueryOnly (on : Bool) (h : H D S R) : H D S R :=
  if pragmaAllowed h "query_only" (if on then "true" else "false") then { h with queryOnly := on } else h

/-- What a follower does with the text of a transaction: all of it through `writeUnmodified` on a handle without
authorizer, whitelist or rewriting (SQLiteNode.cpp `_handlePrepareTransaction`).  `none`: a statement fails. -/
def replay (E : Engine D S R) (vol : Nat) : List (Item S) → Bool → D → Option (D × Bool)
  | [], noop, d => some (d, noop)
  | .noop on :: is, _, d => replay E vol is on d
  | .stmt s :: is, noop, d =>
    match prep ({ data := d, base := d } : H D S R) true false (E.acts s) with
    | .go hid =>
      match E.exec s { noop := noop, queryOnly := false, vol := vol, hidden := hid } d with
      | .ok d' _ _ => replay E vol is noop d'
      | .fail _ _ => none
    | _ => none

inductive Op (S : Type) where
  | begin
  | read (q : List S) (l : Luck)
  | write (k : Kind) (q : List S) (l : Luck)
  | setNoop (on : Bool)
  | setQueryOnly (on : Bool)
  | setWhitelist (w : Option (List (String × List String)))
  | setAuthorizer (f : Option (Action → Bool))
  | setRewrite (f : Option (Action → Option (List S)))
  | rollback
  /-- `prepare` and `commit` -/
  | commit
  /-- another thread commits a transaction with this text -/
  | external (text : List (Item S))

/-- One call on the handle. -/
def step (E : Engine D S R) [DecidableEq S] (h : H D S R) : Op S → H D S R × Ans S R
  -- SQLite.cpp:517-580
  | .begin =>
    if h.inside then ({ h with inside := false, pending := [], cache := [], data := h.base, moved := false }, .thrown)
    else ({ h with inside := true, cache := [], data := h.base, moved := false }, .ok [])
  | .read q l => read E q l h
  | .write k q l => write E k q l h
  | .setNoop on => (setNoop on h, .ok [])
  | .setQueryOnly on => (setQueryOnly on h, .ok [])
  -- a public member, SQLite.h:322
  | .setWhitelist w => ({ h with whitelist := w }, .ok [])
  -- SQLite.cpp:1418-1425
  | .setAuthorizer f => ({ h with authorizer := f, cache := [] }, .ok [])
  -- SQLite.cpp:1395-1406
  | .setRewrite f => ({ h with rewrite := f }, .ok [])
  -- SQLite.cpp:1253-1305
  | .rollback =>
    ({ h with inside := false, pending := if h.inside then [] else h.pending, cache := [], data := h.base,
              moved := false }, .ok [])
  -- SQLite.cpp:1079-1229
  | .commit =>
    if !h.inside then (h, .crash)
    else if h.moved then (h, .conflict)
    else ({ h with inside := false, pending := [], cache := [], base := h.data }, .committed h.pending)
  | .external text =>
    match replay E 0 text false h.base with
    | some (d, _) =>
      if h.inside then ({ h with base := d, moved := true }, .ok [])
      else ({ h with base := d, data := d }, .ok [])
    | none => (h, .failed)

/-- A history and its answers. -/
def run (E : Engine D S R) [DecidableEq S] (h : H D S R) : List (Op S) → H D S R × List (Ans S R)
  | [] => (h, [])
  | o :: os =>
    let (h', a) := step E h o
    let (h'', as) := run E h' os
    (h'', a :: as)

end Bedrock.Handle
