import Verif.Model.Deadline

/-!
# Running one stage of a command on a database handle

Models `BedrockCore::prePeekCommand`, `peekCommand`, `processCommand`, `postProcessCommand`,
`_handleCommandException`, `decreaseCommandTimeout`, `isTimedOut` and `_throwIfAborted`
(BedrockCore.cpp:35-487), with the parts of `SQLite` they touch: `beginTransaction`
(SQLite.cpp:517-580), `rollback` (1253-1302), `write` / `writeIdempotent` (763-927), `setTimeout`,
`clearTimeout`, `setUpdateNoopMode` (1574-1606), `setQueryOnly` (1645-1650) and `setAbortRef`,
`clearAbortRef` (382-390).

A plugin callback is an arbitrary list of calls on the handle, followed by an arbitrary way of
ending: a normal return, or any of the kinds of exception the handlers distinguish.  Quantifying
over these covers every plugin, including one that catches exceptions of the handle itself.

Not modelled: logging, timers, the JSON content of the response (`jsonContent`), headers of the
response other than the method line, and the query cache.
-/

namespace Bedrock.Command
open Bedrock.Deadline

/-- The members of a `SQLite` handle that a stage of a command can leave behind. -/
structure Hd where
  /-- `_insideTransaction` -/
  inside : Bool := false
  /-- `_mutexLocked` -/
  locked : Bool := false
  /-- `_uncommittedQuery` -/
  uq : Bytes := []
  /-- `_timeoutLimit`, `none` when 0 -/
  limit : Option Int := none
  /-- `_shouldAbortPtr != nullptr` -/
  abortRef : Bool := false
  /-- `PRAGMA query_only` -/
  queryOnly : Bool := false
  /-- `_noopUpdateMode` -/
  noop : Bool := false
  /-- `_enableRewrite` and `_rewriteHandler` -/
  rewrite : Bool := false
deriving DecidableEq, Repr

/-- Calls a plugin can make on the handle it is given, with the outcome of the parts decided by
SQLite. -/
inductive Call where
  /-- `write` (`idem = false`) or `writeIdempotent`; `q` is the expanded text, `ok` whether the
  statement runs, `changed` whether it changed rows or schema -/
  | write (idem : Bool) (q : Bytes) (ok changed : Bool)
  /-- `beginTransaction`; `ok` is the result of `BEGIN` -/
  | begin (exclusive ok : Bool)
  | rollback
  | setNoop (b : Bool)
  | setQueryOnly (b : Bool)
  | setTimeout (us : Int)
  | clearTimeout
  | setAbortRef
  | clearAbortRef
  | enableRewrite (b : Bool)
deriving DecidableEq, Repr

/-- `SQLite::rollback` (SQLite.cpp:1253-1302). -/
def rollback (h : Hd) : Hd :=
  if h.inside then { h with inside := false, uq := [], locked := false } else h

/-- `SQLite::beginTransaction` (SQLite.cpp:517-580); the flag tells whether it returned `true`
(`false` stands for the return value `false` as well as for an exception, which all callers here
turn into one). -/
def begin' (h : Hd) (exclusive ok : Bool) : Hd × Bool :=
  let h1 := if exclusive then { h with locked := true } else h
  if h1.inside || !h1.uq.isEmpty then (rollback h1, false)
  else ({ h1 with inside := ok }, ok)

/-- The text of the pragma `setUpdateNoopMode` runs (SQLite.cpp:1595). -/
def noopText (b : Bool) : Bytes :=
  (if b then "PRAGMA noop_update=ON;" else "PRAGMA noop_update=OFF;").toList.map
    (fun c => UInt8.ofNat c.toNat)

/-- `SQLite::setUpdateNoopMode` (SQLite.cpp:1588-1604). -/
def setNoop (h : Hd) (b : Bool) : Hd :=
  if h.noop = b then h
  else { h with noop := b, uq := if h.inside then h.uq ++ noopText b else h.uq }

/-- `SQLite::write` and `writeIdempotent` (SQLite.cpp:768-789, 801-821, 853-927).  With
`query_only` set SQLite refuses the statement. -/
def write (h : Hd) (idem : Bool) (q : Bytes) (ok changed : Bool) : Hd :=
  if !idem && h.noop then h
  else if h.inside && ok && !h.queryOnly && changed then { h with uq := h.uq ++ q }
  else h

/-- One call of a plugin. -/
def Call.run (h : Hd) : Call → Hd
  | .write i q ok ch => Command.write h i q ok ch
  | .begin e ok => (begin' h e ok).1
  | .rollback => Command.rollback h
  | .setNoop b => Command.setNoop h b
  | .setQueryOnly b => { h with queryOnly := b }
  | .setTimeout us => { h with limit := some us }
  | .clearTimeout => { h with limit := none }
  | .setAbortRef => { h with abortRef := true }
  | .clearAbortRef => { h with abortRef := false }
  | .enableRewrite b => { h with rewrite := b }

/-- The exceptions the handlers tell apart (BedrockCore.cpp:115-137, 189-225, 297-357). -/
inductive Exc where
  /-- an `SException` with this method line -/
  | sexc (method : String)
  /-- `SQLite::timeout_error` -/
  | timeout
  /-- `SQLite::constraint_error` -/
  | constraint
  | other
deriving DecidableEq, Repr

/-- How a callback ends. -/
inductive End where
  | ret (b : Bool)
  | throw (x : Exc)
deriving DecidableEq, Repr

/-- One callback of a plugin: `prePeek`, `peek`, `process`, `postProcess` or
`shouldEnableQueryRewriting`. -/
structure Callback where
  calls : List Call := []
  /-- method line it puts in the response, if any -/
  response : Option String := none
  /-- whether it sets `_commitEmptyTransactions` -/
  commitEmpty : Bool := false
  ending : End := .ret true
deriving DecidableEq, Repr

/-- The stages. -/
inductive Stage where
  | prePeek | peek | process | postProcess
deriving DecidableEq, Repr

/-- The members of a `BedrockCommand` the stages read or write. -/
structure Cmd where
  req : Req := {}
  /-- `_timeout` -/
  deadline : Int
  /-- `request.isSet("mockRequest")` -/
  mock : Bool := false
  /-- `isSynchronous` -/
  isSync : Bool := false
  complete : Bool := false
  response : String := ""
  repeek : Bool := false
  commitEmpty : Bool := false
  /-- `_inDBReadOperation` -/
  inRead : Bool := false
  /-- `_inDBWriteOperation` -/
  inWrite : Bool := false
  /-- plugin callbacks that have been started, oldest first (not a member: what happened) -/
  ran : List Stage := []
deriving DecidableEq, Repr

/-- What a stage observes of its surroundings. -/
structure Env where
  /-- `socket && shouldAbort` before the callback -/
  abort₀ : Bool := false
  /-- `socket && shouldAbort` after the callback -/
  abort₁ : Bool := false
  /-- clock at `getRemainingTime` -/
  t₀ : Int := 0
  /-- clocks at the two `getRemainingTime` and the `setTimeout` of `decreaseCommandTimeout` -/
  t₁ : Int := 0
  t₂ : Int := 0
  t₃ : Int := 0
  /-- `BEGIN` succeeds -/
  beginOk : Bool := true
  /-- on the blocking commit thread -/
  exclusive : Bool := false
deriving DecidableEq, Repr

/-- Run the callback's calls and note what it does to the command. -/
def Callback.exec (p : Callback) (st : Stage) (h : Hd) (c : Cmd) : Hd × Cmd :=
  (p.calls.foldl Call.run h,
   { c with response := p.response.getD c.response
            commitEmpty := c.commitEmpty || p.commitEmpty
            ran := c.ran ++ [st] })

/-- `_handleCommandException` (BedrockCore.cpp:442-476), the method line. -/
def handleException (c : Cmd) (m : String) : Cmd :=
  if m = "" then c else { c with response := m }

/-- `decreaseCommandTimeout` (BedrockCore.cpp:478-487); the flag is `false` if it throws 555. -/
def decrease (e : Env) (h : Hd) (c : Cmd) (ms : Int) : Hd × Cmd × Bool :=
  match remaining c.req c.deadline e.t₁ false with
  | none => (h, c, false)
  | some rem =>
    if ms * 1000 < rem then
      match remaining c.req (setTimeout ms e.t₂) e.t₃ false with
      | none => (h, { c with deadline := setTimeout ms e.t₂ }, false)
      | some rem' => ({ h with limit := some rem' }, { c with deadline := setTimeout ms e.t₂ }, true)
    else (h, c, true)

/-- Milliseconds allowed on the blocking thread (BedrockCore.cpp:169-171, 275-277). -/
def exclusiveMs (c : Cmd) : Int := if c.isSync then 20000 else 5000

/-- `beginTransaction` and, on the blocking thread, `decreaseCommandTimeout`
(BedrockCore.cpp:164-172, 266-279). -/
def open' (e : Env) (h : Hd) (c : Cmd) : Hd × Cmd × Option Exc :=
  match begin' h e.exclusive e.beginOk with
  | (h1, false) => (h1, c, some (.sexc "501 Failed to begin transaction"))
  | (h1, true) =>
    if e.exclusive then
      match decrease e h1 c (exclusiveMs c) with
      | (h2, c2, true) => (h2, c2, none)
      | (h2, c2, false) => (h2, c2, some (.sexc "555 Timeout"))
    else (h1, c, none)

/-- The reset at the end of prePeek, peek and postProcess (BedrockCore.cpp:141-146, 235-240,
435-439). -/
def resetRead (h : Hd) : Hd := { h with limit := none, abortRef := false, queryOnly := false }

/-- The body of a read-only stage without its own transaction, up to the handlers
(BedrockCore.cpp:94-122, 383-407): `none` if it went through. -/
def readBody (e : Env) (p : Callback) (st : Stage) (what : String) (h : Hd) (c : Cmd) :
    Hd × Cmd × Option Exc :=
  if e.abort₀ then (h, c, some (.sexc "556 Aborted"))
  else match remaining c.req c.deadline e.t₀ false with
  | none => (h, c, some (.sexc "555 Timeout"))
  | some r =>
    let h1 := { h with limit := some r, abortRef := true, queryOnly := true }
    let (h2, c2) := p.exec st h1 { c with inRead := true }
    match p.ending with
    | .ret _ =>
      let c3 := { c2 with inRead := false }
      if e.abort₁ then (h2, c3, some (.sexc "556 Aborted")) else (h2, c3, none)
    | .throw .timeout => (h2, { c2 with inRead := false }, some (.sexc what))
    | .throw x => (h2, c2, some x)

/-- The two handlers around it (BedrockCore.cpp:128-137, 419-430). -/
def readCatch (c : Cmd) : Exc → Cmd
  | .sexc m => { handleException c m with inRead := false }
  | _ => { c with response := "500 Unhandled Exception", inRead := false }

/-- `prePeekCommand` (BedrockCore.cpp:86-146). -/
def prePeek (e : Env) (p : Callback) (h : Hd) (c : Cmd) : Hd × Cmd :=
  match readBody e p .prePeek "555 Timeout prePeeking command" h c with
  | (h1, c1, none) => (resetRead h1, c1)
  | (h1, c1, some x) => (resetRead h1, { readCatch c1 x with complete := true })

/-- `postProcessCommand` (BedrockCore.cpp:372-440). -/
def postProcess (e : Env) (p : Callback) (h : Hd) (c : Cmd) : Hd × Cmd :=
  match readBody e p .postProcess "555 Timeout postProcessing command" h c with
  | (h1, c1, none) => (resetRead h1, { c1 with complete := true })
  | (h1, c1, some x) => (resetRead h1, { readCatch c1 x with complete := true })

/-- What the body of `peekCommand` ends in. -/
inductive PeekEnd where
  /-- `peek` returned `true` -/
  | completed
  /-- `peek` returned `false` -/
  | notCompleted
  | threw (x : Exc)
deriving DecidableEq, Repr

/-- The body of `peekCommand` up to the handlers (BedrockCore.cpp:157-195). -/
def peekBody (e : Env) (p : Callback) (h : Hd) (c : Cmd) : Hd × Cmd × PeekEnd :=
  if e.abort₀ then (h, c, .threw (.sexc "556 Aborted"))
  else match remaining c.req c.deadline e.t₀ false with
  | none => (h, c, .threw (.sexc "555 Timeout"))
  | some r =>
    match open' e { h with limit := some r, abortRef := true } c with
    | (h1, c1, some x) => (h1, c1, .threw x)
    | (h1, c1, none) =>
      let (h2, c2) := p.exec .peek { h1 with queryOnly := true } { c1 with inRead := true }
      match p.ending with
      | .ret b =>
        let c3 := { c2 with inRead := false }
        if e.abort₁ then (h2, c3, .threw (.sexc "556 Aborted"))
        else (h2, c3, if b then .completed else .notCompleted)
      | .throw .timeout =>
        (h2, { c2 with inRead := false }, .threw (.sexc "555 Timeout peeking command"))
      | .throw x => (h2, c2, .threw x)

/-- `BedrockCore::RESULT` as far as it is returned. -/
inductive Res where
  | complete | shouldProcess | needsCommit | noCommitRequired
deriving DecidableEq, Repr

/-- "If no response was set, assume 200 OK" (BedrockCore.cpp:198-200, 320-322). -/
def defaultOk (c : Cmd) : Cmd := if c.response = "" then { c with response := "200 OK" } else c

/-- `peekCommand` (BedrockCore.cpp:148-244). -/
def peek (e : Env) (p : Callback) (h : Hd) (c : Cmd) : Hd × Cmd × Res :=
  match peekBody e p h c with
  | (h1, c1, .notCompleted) => (resetRead h1, c1, .shouldProcess)
  | (h1, c1, .completed) =>
    (resetRead (rollback h1), { defaultOk c1 with complete := true }, .complete)
  | (h1, c1, .threw x) =>
    (resetRead (rollback h1), { readCatch { c1 with repeek := false } x with complete := true },
      .complete)

/-- The part of `processCommand` inside the transaction (BedrockCore.cpp:284-309).  `rw` is
`shouldEnableQueryRewriting`, which runs plugin code before the inner `try`; returning `true`
enables rewriting for the scope of the `AutoScopeRewrite`, whose destructor runs on every way out. -/
def processInner (e : Env) (rw p : Callback) (h : Hd) (c : Cmd) : Hd × Cmd × Option Exc :=
  let h3 := rw.calls.foldl Call.run (setNoop h c.mock)
  match rw.ending with
  | .throw x => (h3, c, some x)
  | .ret enable =>
    let r := p.exec .process { h3 with rewrite := enable || h3.rewrite } { c with inWrite := true }
    let h6 := { r.1 with rewrite := !enable && r.1.rewrite }
    match p.ending with
    | .throw .timeout => (h6, r.2, some (.sexc "555 Timeout processing command"))
    | .throw x => (h6, r.2, some x)
    | .ret _ =>
      let c6 := { r.2 with inWrite := false }
      if e.abort₁ then (h6, c6, some (.sexc "556 Aborted")) else (h6, c6, none)

/-- The body of `processCommand` up to the handlers (BedrockCore.cpp:254-337). -/
def processBody (e : Env) (rw p : Callback) (h : Hd) (c : Cmd) : Hd × Cmd × Option Exc :=
  if e.abort₀ then (h, c, some (.sexc "556 Aborted"))
  else match remaining c.req c.deadline e.t₀ true with
  | none => (h, c, some (.sexc "555 Timeout"))
  | some r =>
    let h1 := { h with limit := some r, abortRef := true }
    if h.inside then processInner e rw p h1 c
    else match open' e h1 c with
    | (h2, c2, some x) => (h2, c2, some x)
    | (h2, c2, none) => processInner e rw p h2 c2

/-- The handlers of `processCommand` (BedrockCore.cpp:338-357). -/
def processCatch (c : Cmd) : Exc → Cmd
  | .sexc m => { handleException c m with inWrite := false }
  | .constraint => { c with response := "400 Unique Constraints Violation", inWrite := false }
  | _ => { c with response := "500 Unhandled Exception", inWrite := false }

/-- The reset at the end of `processCommand` (BedrockCore.cpp:359-364). -/
def resetProcess (h : Hd) : Hd := { setNoop h false with limit := none, abortRef := false }

/-- `processCommand` (BedrockCore.cpp:246-370). -/
def process (e : Env) (rw p : Callback) (h : Hd) (c : Cmd) : Hd × Cmd × Res :=
  match processBody e rw p h c with
  | (h1, c1, some x) =>
    (resetProcess (rollback h1), { processCatch c1 x with complete := true }, .noCommitRequired)
  | (h1, c1, none) =>
    if h1.uq.isEmpty && !c1.commitEmpty then
      (resetProcess (rollback h1), { defaultOk c1 with complete := true }, .noCommitRequired)
    else (resetProcess h1, { defaultOk c1 with complete := false }, .needsCommit)

/-- `BedrockCore::isTimedOut` (BedrockCore.cpp:63-74). -/
def isTimedOut (c : Cmd) (now : Int) : Cmd × Bool :=
  match remaining c.req c.deadline now false with
  | none => ({ handleException c "555 Timeout" with complete := true }, true)
  | some _ => (c, false)

end Bedrock.Command
