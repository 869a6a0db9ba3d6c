import Verif.Model.Ports

/-!
# Stopping, detaching and attaching a server: `BedrockServer.cpp`, `main.cpp`

Two threads: the main thread, which polls the ports (main.cpp:383-429), and the sync thread
(`syncWrapper`).  Control commands run in threads of their own.  Each step reads and writes the shared
flags as one unit of the code does; steps of different threads interleave in any order.  A second
termination signal, which makes the process abort if the main thread still polls, is not a step.
-/

namespace Bedrock.Lifecycle
open Bedrock.Ports (Shut)

/-- Where the sync thread is: in `sync` with a node and an open database, back from it, waiting in the
detached state, or ended. -/
inductive Th where
  | sync
  | ended
  | sleeping
  | exited
deriving DecidableEq, Repr

/-- The main thread: polling, copying the database, or past its loops and waiting for the sync thread in
the destructor. -/
inductive Main where
  | polling
  | copying
  | joining
deriving DecidableEq, Repr

structure S where
  /-- `_detach` -/
  detach : Bool := false
  /-- `_syncLoopShouldBeRunning` -/
  loopFlag : Bool := true
  /-- `_pluginsDetached` -/
  plugDet : Bool := false
  /-- `_shouldBackup` -/
  backup : Bool := false
  /-- `_shutdownState` -/
  shut : Shut := .running
  /-- a termination signal has arrived -/
  term : Bool := false
  thread : Th := .sync
  main : Main := .polling
  /-- `Attach` commands between their two stores -/
  att : Nat := 0
deriving DecidableEq, Repr

/-- The start of the process (BedrockServer.cpp:1020-1030); with `-bootstrap` the sync thread goes straight to the
detached state (38-51). -/
def start (bootstrap : Bool) : S :=
  if bootstrap then { detach := true, plugDet := true, thread := .sleeping } else {}

/-- `isDetached`, BedrockServer.cpp:1474-1477. -/
def S.isDetached (s : S) : Bool := s.detach && !s.loopFlag && s.plugDet

/-- `_beginShutdown`, BedrockServer.cpp:1951-1995. -/
def S.beginShutdown (s : S) (d : Bool) : S :=
  if s.shut = .running then { s with detach := d, shut := .startShutdown } else s

/-- `shutdownComplete`, BedrockServer.cpp:1148-1156; `shutdownWhileDetached` is never set. -/
def S.shutdownComplete (s : S) : Bool := if s.detach then false else !s.loopFlag

inductive Ev where
  /-- SIGTERM or SIGINT -/
  | term
  /-- the commands `Detach`, `BeginBackup` and the two stores of `Attach` -/
  | cmdDetach
  | cmdBackup
  | cmdAttach
  | cmdAttachDone
  /-- the main thread: `postPoll` sees the signals; `postPoll` sees no socket threads and no commands;
  the test of its loops; the start and the end of a backup -/
  | poll
  | commandsDone
  | check
  | copy
  | copied
  /-- the sync thread: leaves `sync`; goes on in `syncWrapper`; wakes up -/
  | syncEnd
  | wrapper
  | wake
deriving DecidableEq, Repr

def S.step (s : S) : Ev → S
  | .term => { s with term := true }
  -- BedrockServer.cpp:1700-1706
  | .cmdDetach => if s.isDetached then s else s.beginShutdown true
  -- BedrockServer.cpp:1682-1684
  | .cmdBackup => { s with backup := true }.beginShutdown true
  -- BedrockServer.cpp:1707-1723, no plugin preventing it
  | .cmdAttach => if s.shut = .running then { s with loopFlag := true, att := s.att + 1 } else s
  | .cmdAttachDone => if 0 < s.att then { s with detach := false, att := s.att - 1 } else s
  -- BedrockServer.cpp:1238-1241
  | .poll => if s.main = .polling ∧ s.term = true then s.beginShutdown false else s
  -- BedrockServer.cpp:1255-1277; an `Attach` between its stores is a socket thread
  | .commandsDone => if s.main = .polling ∧ s.shut = .startShutdown ∧ s.att = 0 then
      { s with shut := .commandsFinished } else s
  -- main.cpp:383, 397, 426: out of both loops if the server says it is done and there was a signal
  | .check => if s.main = .polling ∧ s.shutdownComplete = true ∧ s.term = true then
      { s with main := .joining } else s
  -- main.cpp:398-401
  | .copy => if s.main = .polling ∧ s.backup = true ∧ s.isDetached = true then { s with main := .copying } else s
  | .copied => if s.main = .copying then { s with detach := false, main := .polling } else s
  -- BedrockServer.cpp:249-256, 352-358, 415
  | .syncEnd => if s.thread = .sync ∧ s.shut = .commandsFinished then
      { s with shut := .done, loopFlag := false, thread := .ended } else s
  -- BedrockServer.cpp:64-68, 41-51
  | .wrapper => if s.thread = .ended then
      if s.detach then { s with shut := .running, plugDet := true, thread := .sleeping }
      else { s with thread := .exited } else s
  -- BedrockServer.cpp:52-63, 991-1012
  | .wake => if s.thread = .sleeping ∧ s.detach = false then
      { s with loopFlag := true, shut := .running, backup := false, plugDet := false, thread := .sync } else s

def S.run (s : S) (es : List Ev) : S := es.foldl S.step s

end Bedrock.Lifecycle
