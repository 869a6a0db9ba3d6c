import Verif.Model.Node
import Verif.Model.Ports

/-!
# The loop of the sync thread, the schema upgrade and the end of the workers: `BedrockServer::sync`, `worker`

`/repo/BedrockServer.cpp:84-476`, `1007`, `1255-1277`, `1479-1495`, `BedrockCommand.cpp:66-72`.

Three kinds of threads share the server's flags and queues: the sync thread (which alone changes the state of the
node), the main thread (which decides when the commands are finished) and the threads that run commands.  A step below
reads or writes one shared flag or queue, as the code does; steps of different threads interleave in any order.  What
`runCommand` does with a command is left open (it is modelled in `Model/RunCommand.lean`): it ends, or the command goes
into one of the queues.  Control commands are destroyed where they are created and are not steps.  Not modelled: which
waiting commands are due (`Model/Waiting.lean`), timers, the order inside the queues beyond arrival (`Model/CmdQueue.lean`).
-/

namespace Bedrock.SyncLoop
open Bedrock.Node (NState)
open Bedrock.Ports (Shut)

structure Cmd where
  id : Nat
  /-- it is a `BedrockServerUpgradeCommand` -/
  upgrade : Bool := false
deriving DecidableEq, Repr

/-- Where the sync thread is. -/
inductive Pc where
  /-- at the top of the loop, BedrockServer.cpp:178 -/
  | top
  /-- about to let the node update; `pre` is `preUpdateState`, 284 -/
  | iter (pre : NState)
  /-- before reading `_upgradeCompleted`, 332 -/
  | look
  /-- `_upgradeCompleted` was false; before reading `upgradeCommandRunning`, 332 -/
  | look2
  /-- inside `runCommand` with the upgrade command, 345 -/
  | inline (id : Nat)
  /-- at the condition of the loop, 351 -/
  | test
  /-- past the loop, 353-373: the workers are joined -/
  | ended
  /-- `sync` has returned -/
  | closed
deriving DecidableEq, Repr

/-- A start of the upgrade command, with what held at that moment. -/
structure Start where
  node : NState
  majority : Bool
  /-- an upgrade had already succeeded -/
  completed : Bool
deriving DecidableEq, Repr

/-- A write of a command other than the upgrade: the state of the node when the readiness was read (723), and whether
an upgrade had succeeded by the time the command writes. -/
structure Write where
  before : NState
  completed : Bool
deriving DecidableEq, Repr

structure S where
  node : NState := .searching
  /-- `_shutdownState` -/
  shut : Shut := .running
  /-- `SQLiteNode::_isShuttingDown` -/
  nodeStops : Bool := false
  /-- `_upgradeCompleted` -/
  completed : Bool := false
  /-- `upgradeCommandRunning` -/
  running : Bool := false
  /-- `_commandQueue` -/
  main : List Cmd := []
  /-- `_blockingCommandQueue` -/
  blocking : List Cmd := []
  /-- `_futureCommitCommands` -/
  aside : List Cmd := []
  /-- being run by some thread -/
  hand : List Cmd := []
  /-- upgrade commands in their destructor, after `_upgradeCompleted` and before `upgradeCommandRunning` is written -/
  recorded : List Cmd := []
  /-- upgrade commands in their destructor, after the callback and before the count is decreased -/
  cleared : List Cmd := []
  /-- commands destroyed after they were run -/
  finished : List Cmd := []
  /-- commands scheduled for later and dropped when the shutdown began -/
  abandoned : List Cmd := []
  /-- commands destroyed unrun when `sync` ended -/
  discarded : List Cmd := []
  /-- commands that passed the test of readiness before writing (723), with the state of the node then -/
  passed : List (Nat × NState) := []
  next : Nat := 0
  pc : Pc := .top
  /-- history: the starts of the upgrade command, the successes of this run of `sync`, the writes of other commands -/
  starts : List Start := []
  success : List Nat := []
  writes : List Write := []
deriving Repr

inductive Q where
  | main | blocking | aside
deriving DecidableEq, Repr

inductive Ev where
  /-- the sync thread, 178-284; `due`: the waiting commands whose time or commit has come -/
  | top (due : List Nat)
  /-- the sync thread, 288-327: the node reads its messages and updates, which takes it to the state `to` -/
  | update (to : NState)
  /-- the sync thread reads `_upgradeCompleted` -/
  | look
  /-- the sync thread reads `upgradeCommandRunning`, and goes on from there -/
  | start (majority : Bool)
  /-- the sync thread tests whether to go round again; `quiet`: nothing blocks the shutdown of the node -/
  | test (quiet : Bool)
  /-- the workers leave and `sync` returns -/
  | close
  /-- the server is attached again -/
  | reset
  /-- a new command -/
  | create
  /-- `runCommand` puts a command into a queue -/
  | put (id : Nat) (q : Q)
  /-- a worker takes a command out of its queue -/
  | take (id : Nat) (q : Q)
  /-- before writing, `runCommand` asks whether the server is ready (723) -/
  | ready (id : Nat)
  /-- before writing, `runCommand` asks whether the node leads (733), and if so the command writes -/
  | write (id : Nat)
  /-- the command is over and destroyed; for the upgrade: it ended with "200 OK" or not -/
  | finish (id : Nat) (ok : Bool)
  /-- the destructor of the upgrade command goes on -/
  | clear (id : Nat)
  | gone (id : Nat)
  /-- the main thread begins a shutdown; `later`: the commands scheduled for later -/
  | shutdown (later : List Nat)
  /-- the main thread looks whether the commands are finished -/
  | idle
deriving DecidableEq, Repr

/-- `BedrockCommand::getCommandCount`, BedrockCommand.h:291: increased by the constructor, decreased at the end of the
destructor (BedrockCommand.cpp:33, 66-72). -/
def S.count (s : S) : Nat :=
  s.main.length + s.blocking.length + s.aside.length + s.hand.length + s.recorded.length + s.cleared.length

/-- `dbReadyToHandleRequests`, BedrockServer.cpp:1479-1495. -/
def S.dbReady (s : S) : Bool :=
  match s.node with
  | .following => true
  | .leading | .standingDown => s.completed
  | _ => false

def find (id : Nat) (l : List Cmd) : Option Cmd := l.find? (fun c => c.id = id)
def remove (id : Nat) (l : List Cmd) : List Cmd := l.filter (fun c => c.id ≠ id)

def S.queue (s : S) : Q → List Cmd
  | .main => s.main
  | .blocking => s.blocking
  | .aside => s.aside

def S.setQueue (s : S) (q : Q) (l : List Cmd) : S :=
  match q with
  | .main => { s with main := l }
  | .blocking => { s with blocking := l }
  | .aside => { s with aside := l }

/-- The sync thread returns from `runCommand` when the command has left its hands (BedrockServer.cpp:345-350: then the
loop goes to its condition). -/
def S.release (s : S) (id : Nat) : S := if s.pc = .inline id then { s with pc := .test } else s

def forget (id : Nat) (l : List (Nat × NState)) : List (Nat × NState) := l.filter (fun p => p.1 ≠ id)

/-- The top of the loop, BedrockServer.cpp:178-284: waiting commands that are due, or all of them in a shutdown, go to the
main queue; when the commands are finished, the node is told to shut down. -/
def S.doTop (s : S) (due : List Nat) : S :=
  let back := s.aside.filter (fun c => due.contains c.id || s.shut ≠ .running)
  { s with
    main := s.main ++ back
    aside := s.aside.filter (fun c => !(due.contains c.id || s.shut ≠ .running))
    nodeStops := s.nodeStops || s.shut = .commandsFinished
    pc := .iter s.node }

/-- The update, BedrockServer.cpp:288-327: a node that has changed its state and does not lead gives the blocking queue back
to the main queue; only a node that leads, follows or stands down goes on. -/
def S.doUpdate (s : S) (pre to : NState) : S :=
  let s := if to ≠ .leading ∧ to ≠ pre then { s with main := s.main ++ s.blocking, blocking := [] } else s
  { s with node := to, pc := if to = .leading ∨ to = .following ∨ to = .standingDown then .look else .test }

/-- The rest of the test and the start of the upgrade, BedrockServer.cpp:332-345. -/
def S.doStart (s : S) (majority : Bool) : S :=
  if s.running = true ∨ s.node ≠ .leading ∨ majority = false then { s with pc := .test }
  else
    { s with
      hand := s.hand ++ [{ id := s.next, upgrade := true }]
      next := s.next + 1
      running := true
      pc := .inline s.next
      starts := s.starts ++ [{ node := s.node, majority := majority, completed := s.completed }] }

/-- The condition of the loop and what follows it, BedrockServer.cpp:351-358; `shutdownComplete` is
SQLiteNode.cpp:267-292. -/
def S.doTest (s : S) (quiet : Bool) : S :=
  if s.nodeStops = true ∧ s.node.rank ≤ NState.waiting.rank ∧ quiet = true ∧ s.count = 0 then
    { s with pc := .ended, shut := .done }
  else { s with pc := .top }

/-- The destructor of a command, BedrockCommand.cpp:66-72, with the callback of the upgrade command up to its first write,
BedrockServer.cpp:150-157. -/
def S.doFinish (s : S) (c : Cmd) (ok : Bool) : S :=
  let s := { s with hand := remove c.id s.hand, passed := forget c.id s.passed }
  if c.upgrade then
    { s with
      recorded := s.recorded ++ [c]
      completed := s.completed || ok
      success := if ok then s.success ++ [c.id] else s.success }
  else { s with finished := s.finished ++ [c] }

def S.step (s : S) : Ev → S
  | .top due => if s.pc = .top then s.doTop due else s
  | .update to => match s.pc with | .iter pre => s.doUpdate pre to | _ => s
  | .look => if s.pc = .look then { s with pc := if s.completed then .test else .look2 } else s
  | .start m => if s.pc = .look2 then s.doStart m else s
  | .test quiet => if s.pc = .test then s.doTest quiet else s
  -- BedrockServer.cpp:368-386; a worker returns only when its queue is empty (455-465)
  | .close => if s.pc = .ended then
      { s with pc := .closed, discarded := s.discarded ++ s.main ++ s.blocking, main := [], blocking := [] } else s
  -- BedrockServer.cpp:1000-1007, 123-149: a new node and new local variables
  | .reset => if s.pc = .closed then
      { s with pc := .top, node := .searching, shut := .running, nodeStops := false, completed := false, running := false
               success := [] } else s
  -- a socket lives on until the commands are finished (1266), and afterwards only control commands are accepted (2356)
  | .create => if s.shut = .running ∨ s.shut = .startShutdown then
      { s with hand := s.hand ++ [{ id := s.next }], next := s.next + 1 } else s
  | .put id q =>
    match find id s.hand with
    | some c => S.release { s.setQueue q (s.queue q ++ [c]) with
        hand := remove id s.hand, passed := forget id s.passed } id
    | none => s
  | .take id q =>
    if q = .aside then s
    else match find id (s.queue q) with
      | some c => { s.setQueue q (remove id (s.queue q)) with hand := s.hand ++ [c] }
      | none => s
  | .ready id =>
    match find id s.hand with
    | some c => if c.upgrade = false ∧ s.dbReady = true then { s with passed := forget id s.passed ++ [(id, s.node)] }
                else s
    | none => s
  | .write id =>
    match s.passed.find? (fun p => p.1 = id) with
    | some p => if s.node = .leading then
        { s with writes := s.writes ++ [{ before := p.2, completed := s.completed }], passed := forget id s.passed } else s
    | none => s
  | .finish id ok => match find id s.hand with | some c => s.doFinish c ok | none => s
  | .clear id =>
    match find id s.recorded with
    | some c => { s with recorded := remove id s.recorded, cleared := s.cleared ++ [c], running := false }
    | none => s
  | .gone id =>
    match find id s.cleared with
    | some c => S.release { s with cleared := remove id s.cleared, finished := s.finished ++ [c] } id
    | none => s
  -- `_beginShutdown`, 1951-1984; an upgrade command is never scheduled for later
  | .shutdown later => if s.shut = .running then
      { s with shut := .startShutdown
               main := s.main.filter (fun c => !(later.contains c.id && !c.upgrade))
               abandoned := s.abandoned ++ s.main.filter (fun c => later.contains c.id && !c.upgrade) } else s
  -- 1255-1277
  | .idle => if s.shut = .startShutdown ∧ s.count = 0 then { s with shut := .commandsFinished } else s

def S.run (s : S) (es : List Ev) : S := es.foldl S.step s

end Bedrock.SyncLoop
