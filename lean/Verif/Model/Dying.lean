import Verif.Model.Crash
import Verif.Model.Literal

/-!
# A thread dies: `libstuff/SSignal.cpp`, `BedrockServer.cpp`, `sqlitecluster/SQLiteNode.cpp`

Each thread keeps a *die function* that the handler of a fatal signal calls
(`SSignalHandlerDieFunc`, SSignal.cpp:12-16).  Threads that run commands set one that reports the
command to the other nodes.  After that the handler cuts the connections of the node.

Not modelled: the stack trace and the file it is written to, the time the handler takes and whether
what it calls is safe inside a handler (it allocates, takes locks and opens sockets), two threads
that die at once.  A second fault inside the handler, where every signal is blocked
(SSignal.cpp:127-130), ends the process at once.
-/

namespace Bedrock.Dying
open Bedrock.Text Bedrock.Http Bedrock.Crash

/-- A command, as far as its crash report goes: its request and `crashIdentifyingValues`. -/
structure Cmd where
  req : Msg
  keys : List Bytes
deriving DecidableEq

/-- The die function of a thread. -/
inductive Die where
  /-- never set: an empty `function`, which throws when it is called -/
  | unset
  /-- `SInitializeSignals`, SSignal.cpp:95-97 -/
  | nothing
  /-- only a text for the log -/
  | text (t : Bytes)
  /-- the lambda of `runCommand`, BedrockServer.cpp:496-499.  It captures the local variable
  `command` of one call by reference; the number is that call. -/
  | command (call : Nat)
deriving DecidableEq

/-- What matters of a thread. -/
structure Th where
  die : Die := .unset
  /-- the call of `runCommand` the thread is in, and what its variable `command` holds; `none` inside
  is the empty `unique_ptr` after the command was moved into a queue -/
  frame : Option (Nat × Option Cmd) := none
  /-- how many calls of `runCommand` there were -/
  calls : Nat := 0

/-- The steps that change it.  Whatever else a thread does happens between two of them. -/
inductive I where
  /-- `SInitialize`, hence `SInitializeSignals`, SSignal.cpp:92-105 -/
  | init
  /-- the die function is replaced by a text -/
  | say (t : Bytes)
  /-- a request is read and a command is built of it, by the code of a plugin -/
  | build (c : Cmd)
  /-- `runCommand` is entered, BedrockServer.cpp:479-483 -/
  | call (c : Cmd)
  /-- the die function is set to report the command, 493-499 -/
  | arm
  /-- the command is moved into a queue, 523, 571, 618, 663, 727, 745 -/
  | give
  /-- `runCommand` returns: its variables are gone, the die function stays -/
  | ret
deriving DecidableEq

def Th.step (t : Th) : I → Th
  | .init => { t with die := .nothing }
  | .say s => { t with die := .text s }
  | .build _ => t
  | .call c => { t with frame := some (t.calls, some c), calls := t.calls + 1 }
  | .arm => match t.frame with
    | some (n, _) => { t with die := .command n }
    | none => t
  | .give => match t.frame with
    | some (n, _) => { t with frame := some (n, none) }
    | none => t
  | .ret => { t with frame := none }

def Th.run (p : List I) : Th := p.foldl Th.step {}

/-- One command given to `runCommand`. -/
structure Run where
  cmd : Cmd
  /-- it timed out in the queue: answered before the die function is set, 486-489 -/
  expired : Bool := false
  /-- it ends in a queue instead of being answered -/
  given : Bool := false

/-- `runCommand`, BedrockServer.cpp:479-900: the steps above, in their order. -/
def Run.steps (r : Run) : List I :=
  .call r.cmd :: ((if r.expired then [] else .arm :: (if r.given then [.give] else [])) ++ [.ret])

def sEarly : Bytes := b!"Die function called early with no command, probably died in `commandQueue.get`."
def sSync : Bytes := b!"Crashing in sync thread."
def sDown : Bytes := b!"Dying in shutdown"

/-- `worker`, BedrockServer.cpp:417-463; `none` is a wait for a command that ends without one. -/
def workerSteps (os : List (Option Run)) : List I :=
  .init :: os.flatMap fun o => .say sEarly :: (o.elim [] Run.steps)

/-- The thread of one command, `handleSocket`, BedrockServer.cpp:2370-2376: `SInitialize` and
`runCommand`. -/
def cmdSteps (r : Run) : List I := .init :: r.steps

/-- The thread of a connection, `handleSocket`, BedrockServer.cpp:2262-2420: it reads requests and
builds commands, runs status and control commands, and hands the rest to other threads. -/
def socketSteps (cs : List Cmd) : List I := .init :: cs.map .build

/-- The sync thread, BedrockServer.cpp:166-168 and 353-355. -/
def syncSteps : List I := [.init, .say sSync, .say sDown]

/-- `SQLiteNode::KILLABLE_SQLITE_NODE`: set by the constructor (SQLiteNode.cpp:138), never cleared. -/
inductive NodePtr where
  | never | alive | destroyed
deriving DecidableEq

/-- What the handler meets. -/
structure Env where
  /-- `_clusterMessenger` is not null -/
  messenger : Bool
  node : NodePtr

/-- What becomes of a thread that dies. -/
structure Outcome where
  /-- the message given to `runOnAll` -/
  report : Option Msg
  /-- the text for the log; `none`: the die function did not return -/
  said : Option Bytes
  /-- `kill` ran -/
  cut : Bool
deriving DecidableEq

/-- A second fault, or an exception out of the handler: the process is gone. -/
def Outcome.gone : Outcome := ⟨none, none, false⟩

/-- The end of the handler, SSignal.cpp:291-294.  With the address of a node that no longer exists the
behaviour is undefined: here it does not cut anything. -/
def after (e : Env) (report : Option Msg) (said : Bytes) : Outcome :=
  ⟨report, some said, e.node == .alive⟩

/-- The line the die function returns, BedrockServer.cpp:498; the headers `addLogParams` appends are
left out. -/
def crashLine (c : Cmd) : Bytes :=
  b!"CRASHING from BedrockServer::runCommand, command:" ++ c.req.methodLine

/-- The handler, SSignal.cpp:205-305, for the first signal of a thread. -/
def crash (gz : Bytes → Bytes) (e : Env) (t : Th) : Outcome :=
  match t.die with
  | .unset => .gone
  | .nothing => after e none []
  | .text s => after e none s
  | .command n => match t.frame with
    | some (m, some c) =>
      if m = n ∧ e.messenger then
        match crashMessage gz c.req c.keys with
        | some r => after e (some r) (crashLine c)
        | none => .gone
      else .gone
    | _ => .gone

/-! ## Cutting the connections -/

/-- The node while `kill` (SQLiteNode.cpp:2356-2366) runs beside the sync thread.  Connections that
have not logged in are not modelled: `kill` leaves them open. -/
structure Nd where
  /-- `NODE_KILLED` -/
  killed : Bool := false
  /-- the sync thread is inside `update` or `postPoll`, past the check of `NODE_KILLED` -/
  inside : Bool := false
  /-- the peers with a socket -/
  open_ : List Nat := []
  port : Bool := true
  /-- what `kill` has left to do: the peers to reset, then the port; `none`: not called or done -/
  todo : Option (List Nat) := none
  /-- `kill` has returned -/
  done : Bool := false

inductive Ev where
  /-- `update` or `postPoll` begins, SQLiteNode.cpp:453-456, 2159-2162 -/
  | begin_
  /-- it returns -/
  | finish
  /-- `SQLitePeer::postPoll` reconnects, SQLitePeer.cpp:147-158: under the peer's lock, after a check -/
  | connect (i : Nat)
  /-- a LOGIN gives the peer its socket, SQLiteNode.cpp:2187-2190, SQLitePeer.cpp:205-216: no check -/
  | login (i : Nat)
  /-- `update` opens the port, SQLiteNode.cpp:460-462 -/
  | openPort
  /-- a connection ends -/
  | lose (i : Nat)
  /-- `kill` is called; the list is that of the peers -/
  | kill (peers : List Nat)
  /-- `kill` resets the next peer, or gives up the port when there is none left -/
  | killStep

def Nd.step (n : Nd) : Ev → Nd
  | .begin_ => if n.killed then n else { n with inside := true }
  | .finish => { n with inside := false }
  | .connect i => if n.inside && !n.killed && !n.open_.contains i then { n with open_ := i :: n.open_ } else n
  | .login i => if n.inside && !n.open_.contains i then { n with open_ := i :: n.open_ } else n
  | .openPort => if n.inside && !n.port then { n with port := true } else n
  | .lose i => { n with open_ := n.open_.filter (· != i) }
  | .kill ps => if n.killed then n else { n with killed := true, todo := some ps }
  | .killStep => match n.todo with
    | none => n
    | some [] => { n with port := false, todo := none, done := true }
    | some (i :: ps) =>
      { n with
        open_ := n.open_.filter (· != i)
        todo := some ps }

def Nd.run (n : Nd) (es : List Ev) : Nd := es.foldl Nd.step n

end Bedrock.Dying
