import Verif.Model.Http

/-!
# Opening and closing the command ports: `BedrockServer.cpp`

Blocking, unblocking, opening and closing run under `_portMutex`, so each is one step.  The ports are
flags; opening one always succeeds here (`openPort` retries or exits the process).  A thread that
locks `_portMutex` while it holds it is a step of its own: the mutex is not recursive
(BedrockServer.h:400), so the behaviour is undefined.
-/

namespace Bedrock.Ports
open Bedrock.Text

/-- `SHUTDOWN_STATE`, BedrockServer.h. -/
inductive Shut where
  | running
  | startShutdown
  | commandsFinished
  | done
deriving DecidableEq, Repr

structure Srv where
  /-- `_commandPortBlockReasons`, a multiset -/
  reasons : List Bytes := []
  /-- `_isCommandPortLikelyBlocked` -/
  likely : Bool := false
  /-- `_commandPortPublic`, `_commandPortPrivate`, `_controlPort`, `_portPluginMap` -/
  pub : Bool := false
  priv : Bool := false
  ctrl : Bool := true
  plug : Bool := false
  shut : Shut := .running
  detach : Bool := false
  /-- is there a sync node that is leading or following? -/
  ready : Bool := false
  /-- `_shouldBlockNewSocketThreads` -/
  noThreads : Bool := false
deriving DecidableEq, Repr

/-- `blockCommandPort`, BedrockServer.cpp:1403-1413: the ports are closed with the first reason. -/
def Srv.block (s : Srv) (r : Bytes) : Srv :=
  let s' := { s with reasons := r :: s.reasons, likely := true }
  if s'.reasons.length = 1 then { s' with pub := false, plug := false } else s'

/-- `unblockCommandPort`, BedrockServer.cpp:1415-1428: one occurrence of the reason is erased. -/
def Srv.unblock (s : Srv) (r : Bytes) : Srv :=
  let s' := if r ∈ s.reasons then { s with reasons := s.reasons.erase r } else s
  if s'.reasons = [] then { s' with likely := false } else s'

/-- `postPoll` as far as the ports are concerned, BedrockServer.cpp:1186-1228. -/
def Srv.poll (s : Srv) : Srv :=
  if s.reasons = [] ∧ s.ready = true ∧ s.shut = .running then
    { s with pub := true, priv := true, ctrl := true, plug := true }
  else s

/-- `_beginShutdown`, BedrockServer.cpp:1951-1995.  The test of the state and the closing of the ports
are one step here.  What becomes of a server that is told to stop while it is detached is in
`Bedrock.Lifecycle`. -/
def Srv.beginShutdown (s : Srv) (detach : Bool) : Srv :=
  if s.shut = .running then
    { s with detach := detach, pub := false, priv := false, plug := false
             ctrl := if detach then s.ctrl else false
             shut := .startShutdown }
  else s

/-- `postPoll` when shutting down, BedrockServer.cpp:1255-1277: on with it when there are neither socket
threads nor commands. -/
def Srv.commandsDone (s : Srv) (threads commands : Nat) : Srv :=
  if s.shut = .startShutdown ∧ threads = 0 ∧ commands = 0 then { s with shut := .commandsFinished } else s

/-- The sync thread ends its loop, BedrockServer.cpp:249-256, 352-358, 399: the sync node shuts down
only after `COMMANDS_FINISHED` (or when told to by nobody), and there is no node afterwards. -/
def Srv.syncDone (s : Srv) : Srv :=
  if s.shut = .commandsFinished then { s with shut := .done, ready := false } else s

/-- `syncWrapper` enters the detached state, BedrockServer.cpp:42-51. -/
def Srv.detached (s : Srv) : Srv :=
  if s.detach = true ∧ s.shut = .done then { s with shut := .running } else s

/-- `_resetServer`, BedrockServer.cpp:991-1012.  It leaves `_isCommandPortLikelyBlocked` alone. -/
def Srv.reset (s : Srv) : Srv :=
  { s with reasons := [], shut := .running, pub := false, priv := false, ready := false }

/-- `Attach`, BedrockServer.cpp:1707-1724, while the server is detached, and the reset that follows when
`syncWrapper` wakes up (52-62).  The two are one step here; there is no sync node in between. -/
def Srv.attach (s : Srv) : Srv :=
  if s.detach = true ∧ s.shut = .running then { s with detach := false }.reset else s

/-- The sync node reaches or leaves a state in which it leads or follows.  There is a sync node only
while the server is attached and not done. -/
def Srv.node (s : Srv) (ready : Bool) : Srv :=
  if (s.detach = true ∧ s.shut = .running) ∨ s.shut = .done then s else { s with ready := ready }

/-- `blockCommandPort` called by a thread that holds `_portMutex` or does not; `none` is undefined
behaviour (in practice the thread waits for itself for ever). -/
def blockLocking (holds : Bool) (s : Srv) (r : Bytes) : Option Srv :=
  if holds then none else some (s.block r)

/-- A new connection and no thread to be had, BedrockServer.cpp:2137-2163: the first time, the port is
blocked.  `_acceptSockets` has held `_portMutex` since line 2081. -/
def Srv.acceptNoThread (s : Srv) : Option Srv :=
  if s.noThreads then some s
  else (blockLocking true s (str "NOT_ENOUGH_THREADS")).map (fun s => { s with noThreads := true })

/-- What happens to the ports. -/
inductive Ev where
  | block (r : Bytes)
  | unblock (r : Bytes)
  | poll
  | shutdown (detach : Bool)
  | commandsDone (threads commands : Nat)
  | syncDone
  | detached
  | attach
  | node (ready : Bool)
deriving DecidableEq, Repr

def Srv.step (s : Srv) : Ev → Srv
  | .block r => s.block r
  | .unblock r => s.unblock r
  | .poll => s.poll
  | .shutdown d => s.beginShutdown d
  | .commandsDone t c => s.commandsDone t c
  | .syncDone => s.syncDone
  | .detached => s.detached
  | .attach => s.attach
  | .node r => s.node r

def Srv.run (s : Srv) (es : List Ev) : Srv := es.foldl Srv.step s

/-- Is `Connection: close` put into a request?  BedrockServer.cpp:2337-2341. -/
def Srv.closesClients (s : Srv) (fromPublic : Bool) : Bool := fromPublic && s.likely

/-! ## Closing the port when the node falls behind: `SQLiteNode.cpp:994-1006` -/

structure Lag where
  /-- `_blockedCommandPortForBeingBehind` -/
  flag : Bool := false
  srv : Srv := {}
deriving DecidableEq, Repr

def lagReason : Bytes := str "COMMITS_LAGGING_BEHIND"

/-- Every message of a peer, SQLiteNode.cpp:994-1006: `diff` is the peer's commit count minus ours. -/
def Lag.onMessage (l : Lag) (fromLeader : Bool) (diff : Int) : Lag :=
  if fromLeader ∧ 12500 ≤ diff ∧ l.flag = false then { flag := true, srv := l.srv.block lagReason }
  else if diff < 1000 ∧ l.flag = true then { flag := false, srv := l.srv.unblock lagReason }
  else l

end Bedrock.Ports
