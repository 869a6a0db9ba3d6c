import Verif.Model.Forward

/-!
# Model of running a command: `BedrockServer::runCommand`

`/repo/BedrockServer.cpp:479-912`.

The results of the stages, of the clock, of the node's state (read anew at every place the code reads
it), of the commit and of the network are inputs; what the stages themselves guarantee is C41, C42,
C43 and C63.  The socket operations of forwarding are modelled (`Model/Forward.lean`).  Not modelled:
timers, logging, the page locks taken between attempts (C39), and crash handling.
-/

namespace Bedrock.RunCommand
open Bedrock Bedrock.Http Bedrock.Forward

/-- Why a command counts as finished. -/
inductive Why where
  /-- refused as crash-inducing, answered as status or control command, refused by the rate limit, or
  "500 Leader stopped leading" -/
  | refused
  /-- its time is over -/
  | timedOut
  /-- `prePeek` or `peek` finished it (a result or an exception) -/
  | read
  /-- `process` finished it without a change to commit (a result or an exception) -/
  | processed
  /-- its transaction was committed here -/
  | committed
  /-- a peer answered (or the client had gone) -/
  | forwarded
  /-- it was sent to a peer and the answer is lost -/
  | lost
  deriving DecidableEq, Repr

/-- The parts of `BedrockCommand` that decide what happens. -/
structure Cmd where
  /-- `complete`, with the reason -/
  done : Option Why := none
  /-- it has `httpsRequests` -/
  https : Bool := false
  /-- `areHttpsRequestsComplete` -/
  httpsDone : Bool := true
  repeek : Bool := false
  processCount : Nat := 0
  escalateImmediately : Bool := false
  synchronous : Bool := false
  /-- it is the upgrade command -/
  upgrade : Bool := false
  /-- `initiatingClientID` -/
  client : Int := 1
  deriving DecidableEq, Repr

/-- What can be seen from outside. -/
inductive Ev where
  /-- a read stage ran (`prePeek` or `peek`) -/
  | peek
  /-- `process` ran -/
  | process
  /-- the commit of its transaction succeeded or failed -/
  | commit (ok : Bool)
  /-- bytes of it were handed to a peer; `whole`: all of them -/
  | forward (whole : Bool)
  /-- `_reply` -/
  | reply
  /-- put back into the main queue; `blocking`: into the queue of the blocking commit thread -/
  | push (blocking : Bool)
  /-- put aside until a commit arrives -/
  | setAside
  deriving DecidableEq, Repr

/-- How a call ends. -/
inductive Fin where
  | replied
  /-- finished without an answer: nobody is waiting for one -/
  | dropped
  /-- it waits in a queue, to be run again -/
  | queued
  /-- the call has not returned yet -/
  | running
  /-- a failed assertion: the process dies -/
  | died
  deriving DecidableEq, Repr

/-- An attempt to hand the command to a peer: the request as serialised for this attempt, and what the
network does. -/
structure Attempt where
  req : Bytes := [0]
  rounds : List Round := []
  deriving DecidableEq, Repr

/-- The command after `runOnPeer`, the event and the result. -/
def forward (onLeader : Bool) (a : Attempt) (c : Cmd) : Cmd × List Ev × Option Bool :=
  let r := runOnPeer onLeader a.req {} a.rounds
  ({ c with done := if r.complete then some (if r.result = some true then .forwarded else .lost) else c.done },
    if r.delivered = [] then [] else [.forward (r.delivered = a.req)],
    r.result)

/-- The result of `processCommand`. -/
inductive ProcessRes where
  | needsCommit | noCommit | notLeading
  deriving DecidableEq, Repr

/-- What one turn of the main loop meets (BedrockServer.cpp:625-909). -/
structure Turn where
  /-- the time is over when the turn starts (651) -/
  timedOut : Bool := false
  /-- it needs a later commit than this node has (662) -/
  future : Bool := false
  /-- `shouldPrePeek`, and whether it then finishes the command (681-688) -/
  prePeek : Option Bool := none
  /-- `peek` finishes the command; else what it leaves (699) -/
  peekDone : Bool := false
  https : Bool := false
  httpsDone : Bool := true
  repeek : Bool := false
  /-- `dbReadyToHandleRequests` (723) -/
  dbReady : Bool := true
  /-- `getState() == LEADING` (733) -/
  leading : Bool := true
  attempt : Attempt := {}
  processRes : ProcessRes := .needsCommit
  /-- the commit succeeds (777) -/
  commitOk : Bool := true
  /-- `getState() == LEADING` after the commit (779) -/
  leadingAfter : Bool := true
  /-- after a failed commit the time is over (801) -/
  timedOutAfter : Bool := false
  /-- `_maxConflictRetries` (856) -/
  maxRetries : Nat := 0
  /-- shutting down (857) -/
  stopping : Bool := false
  /-- the rate limit refuses the push to the blocking queue (866-870) -/
  limited : Bool := false
  deriving DecidableEq, Repr

/-- A finished call: the command, what it did and how it ended. -/
structure Out where
  cmd : Cmd
  trace : List Ev := []
  fin : Fin
  deriving DecidableEq, Repr

/-- What a turn leads to: the call ends, or the next turn begins. -/
inductive Step where
  | ret (o : Out)
  | again (c : Cmd) (tr : List Ev)
  deriving DecidableEq, Repr

def finish (c : Cmd) (w : Why) (tr : List Ev) : Step :=
  .ret { cmd := { c with done := some w }, trace := tr ++ [.reply], fin := .replied }

/-- After a turn without a result: the retry policy, BedrockServer.cpp:854-909. -/
def retry (dedicated : Bool) (t : Turn) (c : Cmd) (tr : List Ev) : Step :=
  if t.maxRetries ≠ 0 ∨ t.stopping = true then
    if t.maxRetries < c.processCount then
      if t.limited then finish c .refused tr
      else .ret { cmd := c, trace := tr ++ [.push true], fin := .queued }
    else .again c tr
  else if dedicated then .again c tr
  else .ret { cmd := c, trace := tr ++ [.push false], fin := .queued }

/-- The end of a turn, BedrockServer.cpp:838-852: a finished command is post-processed and answered. -/
def endTurn (dedicated : Bool) (t : Turn) (c : Cmd) (tr : List Ev) : Step :=
  match c.done with
  | some w => finish c w tr
  | none => retry dedicated t c tr

/-- Processing and committing, BedrockServer.cpp:752-836. -/
def processTurn (dedicated : Bool) (t : Turn) (c : Cmd) (tr : List Ev) : Step :=
  match t.processRes with
  | .needsCommit =>
    if t.leadingAfter = false then
      .again { c with processCount := c.processCount + 1 } (tr ++ [.process, .commit t.commitOk])
    else if t.commitOk then
      endTurn dedicated t { c with processCount := c.processCount + 1, done := some .committed }
        (tr ++ [.process, .commit true])
    else if t.timedOutAfter then
      endTurn dedicated t { c with processCount := c.processCount + 1, done := some .timedOut }
        (tr ++ [.process, .commit false])
    else endTurn dedicated t { c with processCount := c.processCount + 1 } (tr ++ [.process, .commit false])
  | .noCommit =>
    endTurn dedicated t { c with processCount := c.processCount + 1, done := some .processed } (tr ++ [.process])
  | .notLeading =>
    if c.https then finish { c with processCount := c.processCount + 1 } .refused (tr ++ [.process])
    else endTurn dedicated t { c with processCount := c.processCount + 1 } (tr ++ [.process])

/-- A command that reading did not finish, BedrockServer.cpp:703-751. -/
def writeTurn (dedicated : Bool) (t : Turn) (c : Cmd) (tr : List Ev) : Step :=
  if c.https = true ∧ (c.repeek = true ∨ c.httpsDone = false) then .again c tr
  else if t.dbReady = false ∧ c.upgrade = false then
    .ret { cmd := c, trace := tr ++ [.push false], fin := .queued }
  else if t.leading = false then
    match forward true t.attempt c with
    | (c', ev, some true) => .ret { cmd := c', trace := tr ++ ev ++ [.reply], fin := .replied }
    | (c', ev, some false) => .ret { cmd := c', trace := tr ++ ev ++ [.push false], fin := .queued }
    | (c', ev, none) => .ret { cmd := c', trace := tr ++ ev, fin := .running }
  else processTurn dedicated t c tr

/-- `peek` unless there are network requests that ask for no second one, BedrockServer.cpp:695-701. -/
def peekTurn (dedicated : Bool) (t : Turn) (c : Cmd) (tr : List Ev) : Step :=
  if c.repeek = true ∨ c.https = false then
    if t.peekDone then endTurn dedicated t { c with done := some .read } (tr ++ [.peek])
    else writeTurn dedicated t { c with https := t.https, httpsDone := t.httpsDone, repeek := t.repeek }
      (tr ++ [.peek])
  else writeTurn dedicated t { c with httpsDone := t.httpsDone } tr

/-- One turn of the main loop, BedrockServer.cpp:625-909. -/
def turn (dedicated : Bool) (t : Turn) (c : Cmd) (tr : List Ev) : Step :=
  if t.timedOut then finish c .timedOut tr
  else if t.future then .ret { cmd := c, trace := tr ++ [.setAside], fin := .queued }
  else if c.repeek = false ∧ c.https = false then
    match t.prePeek with
    | some true => finish c .read (tr ++ [.peek])
    | some false => peekTurn dedicated t c (tr ++ [.peek])
    | none => peekTurn dedicated t c tr
  else peekTurn dedicated t c tr

/-- The main loop, BedrockServer.cpp:623-911. -/
def loop (dedicated : Bool) : List Turn → Cmd → List Ev → Out
  | [], c, tr => { cmd := c, trace := tr, fin := .running }
  | t :: ts, c, tr =>
    match turn dedicated t c tr with
    | .ret o => o
    | .again c' tr' => loop dedicated ts c' tr'

/-- What a whole call meets. -/
structure Call where
  /-- called on the blocking commit thread -/
  isBlocking : Bool := false
  /-- `hasDedicatedThread` -/
  dedicated : Bool := false
  /-- the time is over at the start (488) -/
  timedOut : Bool := false
  /-- a status or control command (503) -/
  control : Bool := false
  /-- `_wouldCrash` (508) -/
  wouldCrash : Bool := false
  /-- no sync node, or scheduled in the future (522) -/
  notNow : Bool := false
  /-- the wait for the node to be ready ends by timing out (544) -/
  waitTimedOut : Bool := false
  /-- `getState() == FOLLOWING` (566) -/
  following : Bool := false
  /-- the versions differ, at the two places this is read (566, 571) -/
  versionDiffers : Bool := false
  versionDiffers' : Bool := false
  toLeader : Attempt := {}
  toPeer : Attempt := {}
  /-- `getState() == SYNCHRONIZING` (582) -/
  synchronizing : Bool := false
  whileSync : Attempt := {}
  /-- `getState() == LEADING`, for synchronous commands (612) -/
  leading : Bool := false
  limited : Bool := false
  turns : List Turn := []
  deriving DecidableEq, Repr

/-- From "is it complete" on, BedrockServer.cpp:592-911. -/
def runRest (x : Call) (c : Cmd) (tr : List Ev) : Out :=
  match c.done with
  | some _ =>
    if c.client = 0 then { cmd := c, trace := tr, fin := .died }
    else if 0 < c.client then { cmd := c, trace := tr ++ [.reply], fin := .replied }
    else { cmd := c, trace := tr, fin := .dropped }
  | none =>
    if c.synchronous = true ∧ x.isBlocking = false ∧ x.leading = true then
      if x.limited then
        { cmd := { c with done := some .refused }, trace := tr ++ [.reply], fin := .replied }
      else { cmd := c, trace := tr ++ [.push true], fin := .queued }
    else loop x.dedicated x.turns c tr

/-- The forwarding of a node that is catching up, BedrockServer.cpp:580-590. -/
def runSync (x : Call) (c : Cmd) (tr : List Ev) : Out :=
  if x.synchronizing then
    match forward false x.whileSync c with
    | (c', ev, none) => { cmd := c', trace := tr ++ ev, fin := .running }
    | (c', ev, some _) => runRest x c' (tr ++ ev)
  else runRest x c tr

/-- The second alternative of early escalation, to a follower with the leader's version
(BedrockServer.cpp:571-577). -/
def runToPeer (x : Call) (c : Cmd) (tr : List Ev) : Out :=
  if x.versionDiffers' then
    match forward false x.toPeer c with
    | (c', ev, none) => { cmd := c', trace := tr ++ ev, fin := .running }
    | (c', ev, some true) => runSync x c' (tr ++ ev)
    | (c', ev, some false) => { cmd := c', trace := tr ++ ev ++ [.push false], fin := .queued }
  else { cmd := c, trace := tr ++ [.push false], fin := .queued }

/-- `runCommand`, BedrockServer.cpp:479-912. -/
def runCommand (x : Call) (c : Cmd) : Out :=
  if x.timedOut then { cmd := { c with done := some .timedOut }, trace := [.reply], fin := .replied }
  else if x.control then { cmd := { c with done := some .refused }, trace := [.reply], fin := .replied }
  else if x.wouldCrash then { cmd := { c with done := some .refused }, trace := [.reply], fin := .replied }
  else if x.notNow then { cmd := c, trace := [.push false], fin := .queued }
  else if x.waitTimedOut = true ∧ c.upgrade = false then
    { cmd := { c with done := some .timedOut }, trace := [.reply], fin := .replied }
  else if x.following = true ∧ c.done = none ∧ (c.escalateImmediately = true ∨ x.versionDiffers = true) then
    if c.escalateImmediately then
      match forward true x.toLeader c with
      | (c', ev, none) => { cmd := c', trace := ev, fin := .running }
      | (c', ev, some true) => runSync x c' ev
      | (c', ev, some false) => runToPeer x c' ev
    else runToPeer x c []
  else runSync x c []

/-- The life of a command: run, and run again whenever it comes out of a queue. -/
def life : List Call → Cmd → List Ev → Out
  | [], c, tr => { cmd := c, trace := tr, fin := .queued }
  | x :: xs, c, tr =>
    let o := runCommand x c
    if o.fin = .queued then life xs o.cmd (tr ++ o.trace)
    else { o with trace := tr ++ o.trace }

/-- The wait before the next attempt in milliseconds, BedrockServer.cpp:874-899: `size_t` arithmetic on a
random number. -/
def backoff (processCount : Nat) (rand : Nat) : Nat :=
  let ms := match processCount with
    | 1 => 10 | 2 => 25 | 3 => 50 | 4 => 100 | 5 => 250 | _ => 500
  (ms + (rand % (ms / 2) + 2 ^ 64 - ms / 4)) % 2 ^ 64

end Bedrock.RunCommand
