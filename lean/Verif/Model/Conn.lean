import Verif.Model.Http
import Verif.Model.Buffer
import Verif.Model.Control
import Verif.Model.Sockets

/-!
# One client connection: `BedrockServer::handleSocket`, BedrockServer.cpp:2262-2454

A thread of its own reads requests from the connection and has them run, one after the other; the command may live on
other threads.  Each step below is what one of the threads, the client or the clock does next.  `log` records what
happens, in order; requests are numbered as they are taken.

Not modelled: sockets of plugins (the packets of MySQL are in `Bedrock.Mysql`), requests of 2^31 bytes and more, the count
of socket threads and the port (`Bedrock.Ports`).  What commands compute and answer is arbitrary; that a command is answered
at most once is a property of `runCommand` (C62) and assumed here by ignoring a second answer.
-/

namespace Bedrock.Conn
open Bedrock Bedrock.Text Bedrock.Http
open Bedrock.Buffer (Buf)
open Bedrock.Sockets (State)

inductive Ev where
  /-- the next request is taken off the buffer; its bytes, and what they say -/
  | taken (raw : Bytes) (m : Msg)
  /-- the command of request `k` is given to a thread; does it have the socket? -/
  | started (k : Nat) (m : Msg) (socket : Bool)
  /-- the answer to request `k` is handed to the socket -/
  | reply (k : Nat) (b : Bytes)
  /-- the command of request `k` no longer exists -/
  | gone (k : Nat)
  /-- the command of request `k` is told to give up -/
  | abort (k : Nat)
  /-- the socket is shut down -/
  | shut
  deriving DecidableEq, Repr

/-- The command the thread of the connection waits for, BedrockServer.cpp:2363-2419. -/
structure Wait where
  m : Msg
  socket : Bool
  replied : Bool := false
  /-- `finished` -/
  gone : Bool := false
  /-- `runCommand` has returned -/
  returned : Bool := false
  abort : Bool := false
  deriving DecidableEq, Repr

inductive Phase where
  /-- in `poll`, waiting for the client -/
  | polling
  | waiting (w : Wait)
  /-- the thread is at its end; an exception is caught -/
  | over
  /-- undefined behaviour -/
  | ub
  deriving DecidableEq, Repr

structure Conn where
  state : State := .connected
  recv : Buf := {}
  sendBuf : Bytes := []
  /-- what the kernel was given -/
  wire : Bytes := []
  phase : Phase := .polling
  /-- the number of requests taken -/
  count : Nat := 0
  log : List Ev := []
  /-- everything received, not in the code -/
  got : Bytes := []
  deriving DecidableEq, Repr

/-- Which port the connection came from. -/
structure Port where
  control : Bool := false
  pub : Bool := false
  deriving DecidableEq, Repr

/-- What is found while a request is dealt with. -/
structure Env where
  /-- `_shutdownState == RUNNING` -/
  running : Bool := true
  /-- `_isCommandPortLikelyBlocked` -/
  likely : Bool := false
  now : Nat := 0
  /-- the buffer has to make room (`Bedrock.Buffer`) -/
  full : Bool := false
  /-- `getCommandFromPlugins` or what follows throws -/
  throws : Bool := false
  /-- `_handleIfStatusOrControlCommand` takes the request -/
  handled : Bool := false
  /-- the answer, if it is given here, and how much of what is to be sent the kernel takes at once -/
  answer : Bytes := []
  takes : Nat := 0
  /-- a thread can be started -/
  threads : Bool := true
  deriving DecidableEq, Repr

namespace Conn

def add (c : Conn) (e : Ev) : Conn := { c with log := c.log ++ [e] }

/-- `Socket::shutdown`, STCPManager.cpp:184-189. -/
def shut (c : Conn) (to : State) : Conn := ({ c with state := to } : Conn).add .shut

/-- `Socket::send` on a socket that blocks (STCPManager.cpp:262-275, libstuff.cpp:2279-2326): one call of `send(2)`. -/
def send (c : Conn) (k : Nat) (b : Bytes) (n : Nat) : Conn :=
  if c.state.sendable then
    ({ c with sendBuf := (c.sendBuf ++ b).drop n, wire := c.wire ++ (c.sendBuf ++ b).take n } : Conn).add (.reply k b)
  else c

/-- `_reply`, BedrockServer.cpp:1343-1401, for a command with this socket (more in `Bedrock.Reply`). -/
def answer (c : Conn) (k : Nat) (m : Msg) (running : Bool) (b : Bytes) (n : Nat) : Conn :=
  let c := c.send k b n
  if sIEquals (m.table.get (str "Connection")) (str "close") || !running then c.shut .shuttingDown else c

/-- The test of the loop, BedrockServer.cpp:2277. -/
def again (c : Conn) : Conn := { c with phase := if c.state = .closed then .over else .polling }

/-- Fire and forget?  BedrockServer.cpp:2192.  (`commandExecuteTime` is cast to an unsigned number.) -/
def forgets (m : Msg) (now : Nat) : Bool :=
  sIEquals (m.table.get (str "Connection")) (str "forget") ||
    now < ((Control.calc64 m (str "commandExecuteTime")) % (2 ^ 64 : Int)).toNat

/-- A request from the public port while that is closed, BedrockServer.cpp:2337-2341. -/
def mark (p : Port) (e : Env) (m : Msg) : Msg :=
  if p.pub && e.likely then { m with table := m.table.set (str "Connection") (str "close") } else m

/-- The answer to a request that is not waited for, BedrockServer.cpp:2195-2197. -/
def queued : Bytes := str "202 Successfully queued\r\nConnection: close\r\nContent-Length: 0\r\n\r\n"

/-- `thread commandThread(…)`, BedrockServer.cpp:2363-2399.  Without a thread the exception destroys `callback`, and then the
command, which calls it. -/
def start (c : Conn) (e : Env) (k : Nat) (m : Msg) (socket : Bool) : Conn :=
  if e.threads then { c.add (.started k m socket) with phase := .waiting { m, socket } }
  else if socket then { c with phase := .ub } else { c with phase := .over }

/-- What is done with a request, BedrockServer.cpp:2344-2421, and `buildCommandFromRequest`, 2187-2260. -/
def handle (c : Conn) (p : Port) (e : Env) (k : Nat) (m : Msg) : Conn :=
  if forgets m e.now then
    let c := (c.send k queued e.takes).shut .closed
    if e.running then
      if e.throws then { c with phase := .over }
      else if e.handled then c.again
      else c.start e k m false
    else (c.shut .closed).again
  else if e.throws then { c with phase := .over }
  else if e.handled then (c.answer k m e.running e.answer e.takes).again
  else if p.control && !e.running then (c.answer k m e.running e.answer e.takes).again
  else c.start e k m true

/-- A connected socket that was just read, BedrockServer.cpp:2311-2422. -/
def look (c : Conn) (p : Port) (e : Env) : Conn :=
  let q := c.recv.startsWithRequest
  let c := { c with recv := q.2 }
  if q.1 then
    match parse c.recv.view with
    | .ok k m =>
      match c.recv.consumeFront k with
      | none => { c with phase := .ub }
      | some b =>
        if k = 0 then c.again
        else
          let c' := ({ c with recv := b, count := c.count + 1 } : Conn).add (.taken (c.recv.view.take k) m)
          let m' := mark p e m
          if m'.methodLine = [] ∧ m'.table = [] ∧ m'.content = [] then c'.again
          else c'.handle p e c.count m'
    | .incomplete => c.again
    | .throws => { c with phase := .over }
    | .ub => { c with phase := .ub }
  else c.again

end Conn

/-- What happens next. -/
inductive Step where
  /-- a second without anything from the client, BedrockServer.cpp:2293-2299 -/
  | timeout (running : Bool)
  /-- `poll` fails, 2303-2306 -/
  | pollError
  /-- something can be read, 2307-2313: these bytes are (one call of `recv(2)`), and is the connection still there? -/
  | ready (b : Bytes) (alive : Bool) (e : Env)
  /-- the command of the connection is answered -/
  | reply (b : Bytes) (takes : Nat) (running : Bool)
  /-- the command is destroyed, and `callback` called -/
  | gone
  /-- `runCommand` returns -/
  | returned
  /-- the waiting thread looks around, 2402-2418: did the client go away; is the time for shutting down over? -/
  | check (hup late : Bool)
  deriving DecidableEq, Repr

namespace Conn

/-- The loop that waits for the command, BedrockServer.cpp:2402-2420: on with it when the command is gone, if it had the
socket, and its thread has returned. -/
def wake (c : Conn) (w : Wait) : Conn :=
  if (w.gone || !w.socket) && w.returned then c.again else { c with phase := .waiting w }

def step (p : Port) (c : Conn) : Step → Conn
  | .timeout running => if c.phase = .polling ∧ running = false then (c.shut .closed).again else c
  | .pollError => if c.phase = .polling then (c.shut .closed).again else c
  | .ready b alive e =>
    if c.phase = .polling then
      let c := { c with recv := c.recv.append e.full b, got := c.got ++ b }
      if alive then
        if c.state = .connected then c.look p e else c.again
      else (c.shut .closed).again
    else c
  | .reply b n running =>
    match c.phase with
    | .waiting w =>
      if w.socket && !w.replied && !w.gone then
        { c.answer (c.count - 1) w.m running b n with phase := .waiting { w with replied := true } }
      else c
    | _ => c
  | .gone =>
    match c.phase with
    | .waiting w => if w.gone then c else (c.add (.gone (c.count - 1))).wake { w with gone := true }
    | _ => c
  | .returned =>
    match c.phase with
    | .waiting w => c.wake { w with returned := true }
    | _ => c
  | .check hup late =>
    match c.phase with
    | .waiting w =>
      if w.socket && !w.gone && !w.abort && (hup || late) then
        { c.add (.abort (c.count - 1)) with phase := .waiting { w with abort := true } }
      else c
    | _ => c

def run (p : Port) (c : Conn) (ss : List Step) : Conn := ss.foldl (step p) c

end Conn

end Bedrock.Conn
