import Verif.Model.Http
import Verif.Model.Sockets

/-!
# Connections between nodes: `SQLiteNode::postPoll` and `sqlitecluster/SQLitePeer.cpp`

The sync thread calls `postPoll` once in each round of its loop: it accepts connections on the node port, waits for
their LOGIN, looks after the connection to each configured peer, and hands the messages that have arrived to
`_onMESSAGE`.  Here is who owns which socket, what is done to it and when; what the messages mean is in
`Verif.Model.Node`.  `log` records what happens, in order.

A socket is seen from its owner: the bytes read since the last look and the state found then are inputs (how they come
about is in `Verif.Model.Sockets`).  What `_onMESSAGE` does to connections (`shutdownSocket`, on this peer or on others) is
given by `react`, an arbitrary function of everything that happened so far.  One time is read in each round.  The sockets
in `_unauthenticatedIncomingSockets` are looked at in the order they came; the code orders them by address.
-/

namespace Bedrock.Peers
open Bedrock Bedrock.Text Bedrock.Http
open Bedrock.Sockets (State)

/-- A socket: `got` is not in the code, it records everything received on the connection. -/
structure Sk where
  id : Nat
  state : State
  buf : Bytes := []
  lastRecv : Nat
  got : Bytes := []
  deriving DecidableEq, Repr

/-- What `STCPManager::postPoll` finds: bytes appended to the receive buffer, and the state. -/
structure Io where
  bytes : Bytes := []
  state : State := .connected
  deriving DecidableEq, Repr

/-- `STCPManager::postPoll` (STCPManager.cpp:62-182) as its caller sees it; `lastRecvTime`: 308-311. -/
def Sk.poll (s : Sk) (now : Nat) (io : Io) : Sk :=
  if s.state = .closed then s
  else { s with
    buf := s.buf ++ io.bytes
    got := s.got ++ io.bytes
    lastRecv := if io.bytes = [] then s.lastRecv else now
    state := io.state }

/-- `SQLitePeer`, SQLitePeer.h:80-117: what concerns the connection. -/
structure Peer where
  name : Bytes
  sock : Option Sk := none
  nextReconnect : Nat := 0
  lastPing : Nat := 0
  deriving DecidableEq, Repr

/-- What happens. -/
inductive Ev where
  /-- `_onMESSAGE(peer, message)`, with the bytes of the message -/
  | message (i : Nat) (raw : Bytes) (m : Msg)
  /-- the node opened a connection to the peer -/
  | opened (i : Nat) (id : Nat)
  /-- a connection on the node port became the connection of the peer -/
  | attached (i : Nat) (id : Nat)
  /-- `_onConnect`: LOGIN is sent -/
  | login (i : Nat)
  | ping (i : Nat)
  /-- RECONNECT is sent and the socket shut down, for silence -/
  | reconnect (i : Nat)
  /-- `reset` and `_onDisconnect`; `got` is everything that was received on the connection -/
  | disconnected (i : Nat) (got : Bytes)
  /-- a connection on the node port is closed -/
  | refused (id : Nat)
  deriving DecidableEq, Repr

structure Node where
  peers : List Peer
  /-- `_unauthenticatedIncomingSockets` -/
  waiting : List Sk := []
  /-- `nextActivity`: the next poll ends at this time -/
  next : Nat := 0
  log : List Ev := []
  /-- sockets are numbered as they come up -/
  fresh : Nat := 0
  /-- an exception that nobody catches left `postPoll`, or undefined behaviour: the process ends -/
  dead : Bool := false
  deriving DecidableEq, Repr

/-- The exceptions of `SParseHTTP`: `stoll` throws `out_of_range` for a number that does not fit, otherwise
`invalid_argument`; `string::resize` throws `length_error`. -/
inductive Exc where
  | outOfRange | other
  deriving DecidableEq, Repr

structure World where
  /-- the peers whose sockets are shut down while a message is handled -/
  react : List Ev → Nat → Msg → List Nat
  /-- the exception thrown for a buffer that makes the parser throw -/
  exc : Bytes → Exc

/-- The inputs of one round. -/
structure Round where
  now : Nat
  /-- when the poll is to end if nothing else is to do -/
  until_ : Nat
  /-- accepted connections: what they sent at once -/
  accepted : List Bytes := []
  /-- for each waiting socket, by id -/
  ioWaiting : Nat → Io := fun _ => {}
  /-- for each peer's socket, by id -/
  io : Nat → Io := fun _ => {}
  /-- `SRandom::rand64() % STIME_US_PER_S`, for each peer -/
  delay : Nat → Nat := fun _ => 0
  /-- `new Socket(host)` succeeds -/
  opens : Nat → Bool := fun _ => false
  /-- `NODE_KILLED` -/
  killed : Bool := false

/-- STIME_US_PER_S, STIME_US_PER_M (libstuff.h:199-200). -/
def second : Nat := 1000000
def minute : Nat := 60000000
/-- `RECV_TIMEOUT`, SQLiteNode.cpp:73. -/
def recvTimeout : Nat := 30 * second

namespace Node

def add (n : Node) (e : Ev) : Node := { n with log := n.log ++ [e] }

def sockOf (n : Node) (i : Nat) : Option Sk := (n.peers[i]?).bind (·.sock)

def setPeer (n : Node) (i : Nat) (f : Peer → Peer) : Node := { n with peers := n.peers.modify i f }

def setSock (n : Node) (i : Nat) (s : Option Sk) : Node := n.setPeer i (fun p => { p with sock := s })

/-- `shutdownSocket`, SQLitePeer.cpp:87-93. -/
def shutdown (n : Node) (i : Nat) : Node :=
  n.setPeer i (fun p => { p with sock := p.sock.map (fun s => { s with state := .shuttingDown }) })

/-- `_onMESSAGE`, SQLiteNode.cpp:951-1410, as far as connections are concerned. -/
def handle (w : World) (n : Node) (i : Nat) (raw : Bytes) (m : Msg) : Node :=
  (w.react n.log i m).foldl shutdown (n.add (.message i raw m))

/-- `popMessage` (SQLitePeer.cpp:192-204) in the loop of `_processPeerMessages` (SQLiteNode.cpp:2132-2149), for a number
of messages; the second component says that there were that many.  The loop takes `out_of_range` for the end of the
messages. -/
def pop (w : World) : Nat → Node → Nat → Node × Bool
  | 0, n, _ => (n, true)
  | f + 1, n, i =>
    match n.sockOf i with
    | none => (n, false)
    | some s =>
      match parse s.buf with
      | .ok (k + 1) m =>
        pop w f (handle w (n.setSock i (some { s with buf := s.buf.drop (k + 1) })) i (s.buf.take (k + 1)) m) i
      | .ok 0 _ => (n, false)
      | .incomplete => (n, false)
      | .throws => if w.exc s.buf = .outOfRange then (n, false) else ({ n with dead := true }, false)
      | .ub => ({ n with dead := true }, false)

/-- `_processPeerMessages(nextActivity, peer)`. -/
def some100 (w : World) (r : Round) (n : Node) (i : Nat) : Node :=
  let x := n.pop w 100 i
  if x.2 then { x.1 with next := r.now } else x.1

/-- `_processPeerMessages(nextActivity, peer, true)`; each message has a byte. -/
def all (w : World) (n : Node) (i : Nat) : Node :=
  (n.pop w (((n.sockOf i).elim 0 (·.buf.length)) + 1) i).1

/-- A waiting socket is thrown away, SQLiteNode.cpp:2212-2216. -/
def refuse (n : Node) (s : Sk) : Node := n.add (.refused s.id)

/-- `getPeerByName`, SQLiteNode.cpp:2300-2311: the binary search there finds the peer with the name (`Verif.Model.Lookup`). -/
def byName (n : Node) (name : Bytes) : Option Nat := n.peers.findIdx? (fun p => p.name == name)

/-- A connection on the node port, SQLiteNode.cpp:2173-2216. -/
def authOne (w : World) (r : Round) (n : Node) (s₀ : Sk) : Node :=
  if n.dead then n else
  let s := s₀.poll r.now (r.ioWaiting s₀.id)
  if s.state ≠ .connected then n.refuse s
  else match parse s.buf with
    | .ok (k + 1) m =>
      if sIEquals m.methodLine (str "LOGIN") then
        match n.byName (m.table.get (str "Name")) with
        | some i =>
          if (n.sockOf i).isNone then
            handle w ((((n.setSock i (some { s with buf := s.buf.drop (k + 1) })).add (.attached i s.id)).add (.login i)).add
              (.ping i)) i (s.buf.take (k + 1)) m
          else n.refuse s
        | none => n.refuse s
      else n.refuse s
    | .ok 0 _ | .incomplete =>
      if s.lastRecv + 5 * second < r.now then n.refuse s else { n with waiting := n.waiting ++ [s] }
    | .throws | .ub => { n with dead := true }

/-- `case OK` of `postPoll`, SQLiteNode.cpp:2259-2275: a PING when the peer has been silent, then its messages. -/
def okay (w : World) (r : Round) (n : Node) (i : Nat) : Node :=
  let last := (n.sockOf i).elim 0 (·.lastRecv)
  let ping := last ≠ 0 ∧ recvTimeout - 5 * second < r.now - last ∧
    ((n.peers[i]?).elim 0 (·.lastPing)) + second < r.now
  let n := if ping then (n.setPeer i (fun p => { p with lastPing := r.now })).add (.ping i) else n
  n.some100 w r i

/-- The connection to one peer: `SQLitePeer::postPoll` (SQLitePeer.cpp:103-170) and what `postPoll` does with the result
(SQLiteNode.cpp:2225-2277). -/
def peerOne (w : World) (r : Round) (n : Node) (i : Nat) : Node :=
  if n.dead then n else
  match n.peers[i]? with
  | none => n
  | some p =>
    match p.sock with
    | some s₀ =>
      let s := s₀.poll r.now (r.io s₀.id)
      let n := n.setSock i (some s)
      if s.state = .connected then
        if s.lastRecv + recvTimeout < r.now then
          -- SOCKET_ERROR
          let n := n.all w i
          if n.dead then n else (n.add (.reconnect i)).shutdown i
        else n.okay w r i
      else if s.state = .closed then
        -- SOCKET_CLOSED
        let n := { n.setPeer i (fun p => { p with nextReconnect := r.now + r.delay i }) with
          next := min n.next (r.now + r.delay i) }
        let n := n.all w i
        if n.dead then n
        else (n.setPeer i (fun p => { p with sock := none, lastPing := 0 })).add (.disconnected i s.got)
      else n.okay w r i
    | none =>
      if p.nextReconnect < r.now then
        let n := n.setPeer i (fun p => { p with lastPing := 0 })
        if r.opens i then
          -- JUST_CONNECTED
          (((({ n with fresh := n.fresh + 1 }.setSock i (some { id := n.fresh, state := .connecting, lastRecv := r.now })).add
            (.opened i n.fresh)).add (.login i)).add (.ping i)).some100 w r i
        else (n.setPeer i (fun p => { p with nextReconnect := r.now + minute })).okay w r i
      else ({ n with next := min n.next p.nextReconnect } : Node).okay w r i

/-- The sockets to look at in a round: those that wait and those just accepted (`_acceptSocket`, SQLiteNode.cpp:2111-2130,
reads at once). -/
def incoming (n : Node) (r : Round) : List Sk :=
  n.waiting ++ r.accepted.mapIdx (fun k b => { id := n.fresh + k, state := .connected, buf := b, got := b, lastRecv := r.now })

/-- `postPoll`, SQLiteNode.cpp:2151-2282. -/
def round (w : World) (n : Node) (r : Round) : Node :=
  if n.dead ∨ r.killed then n
  else
    let n₁ := (n.incoming r).foldl (authOne w r)
      { n with waiting := [], next := r.until_, fresh := n.fresh + r.accepted.length }
    (List.range n₁.peers.length).foldl (peerOne w r) n₁

def run (w : World) (n : Node) (rs : List Round) : Node := rs.foldl (round w) n

end Node

/-- A node with these peers, not connected. -/
def start (names : List Bytes) : Node := { peers := names.map (fun name => { name }) }

end Bedrock.Peers
