import Verif.Model.Node

/-!
# Many nodes and the connections between them

`size` nodes, each the state machine of `Verif.Model.Node`, joined by connections (`SQLitePeer`'s sockets). A connection
delivers what each side has sent in order; each side finds out in its own time that it is gone. Nodes may stop and start again.

Abstracted as in `Verif.Model.Node`; what a SYNCHRONIZE_RESPONSE or SUBSCRIPTION_APPROVED does to the database is an input
(`Verif.Model.Sync`, `Verif.Model.Cluster`). The answer to SYNCHRONIZE, which a thread of its own sends
(SQLiteNode.cpp:1207-1234), is sent at once here. PING and PONG are in `Verif.Model.Peers`.
-/

namespace Bedrock.Net
open Bedrock Bedrock.Node Bedrock.Node.Node

/-- Node `i` keeps its peers in a list without itself; here they are in the order of the nodes. The node behind entry `k`. -/
def idOf (i k : Nat) : Nat := if k < i then k else k + 1

/-- The entry of node `i` for node `j`. -/
def ixOf (i j : Nat) : Nat := if j < i then j else j - 1

/-- What is sent: a LOGIN, or one of the messages of `Verif.Model.Node`. -/
inductive Payload where
  | login (priority : Int) (state : NState) (version : Bytes)
  | out (m : OutMsg)
deriving DecidableEq, Repr

/-- A message with the headers `_addPeerHeaders` adds (SQLiteNode.cpp:1505-1515). -/
structure Packet where
  commits : Nat
  hash : Bytes
  payload : Payload
deriving DecidableEq, Repr

/-- One side of a connection (`STCPManager::Socket::State`; CONNECTING and failures to connect are left out). -/
inductive Side where
  | closed | open | closing
deriving DecidableEq, Repr

structure Net where
  size : Nat
  node : Nat → Node
  /-- `side i j`: the socket node `i` has for node `j` -/
  side : Nat → Nat → Side
  /-- `chan i j`: sent by `i` to `j` over the last connection and not yet handled, oldest first -/
  chan : Nat → Nat → List Packet

def upd {α : Type} (f : Nat → α) (i : Nat) (x : α) : Nat → α := fun k => if k = i then x else f k
def upd2 {α : Type} (f : Nat → Nat → α) (i j : Nat) (x : α) : Nat → Nat → α :=
  fun a b => if a = i ∧ b = j then x else f a b

/-- What a message says to the receiver (SQLiteNode.cpp:1008-1396). LOGIN has no StateChangeCount (1411-1425). RECONNECT is not
recognised. `mismatch`: whether the answer to SYNCHRONIZE says that the histories differ. -/
def body (mismatch : Bool) : Payload → Body
  | .login p s v => .login (some p) (some s) (some v) none
  | .out (.state s p c) => .state (some s) (some p) (some (c : Int))
  | .out (.standupResponse c r) => .standupResponse c r
  | .out .forked => .forked
  | .out .synchronize => .synchronize
  | .out .syncShuttingDown => .synchronizeResponse false
  | .out .syncReply => .synchronizeResponse mismatch
  | .out .subscribe => .subscribe
  | .out .subscriptionApproved => .subscriptionApproved
  | .out .reconnect => .other

/-- What node `i` puts on its socket for node `j` while it does `es`, and the state of that socket afterwards: nothing is sent
once it is shut down (SQLitePeer.cpp:294-305), a message to all goes to those that are not forked (SQLiteNode.cpp:1529-1545). -/
def sends (i j : Nat) (forked : Bool) : Side → List Effect → List OutMsg × Side
  | s, [] => ([], s)
  | s, .shutdownSocket k :: es =>
    sends i j forked (if idOf i k = j ∧ s = .open then .closing else s) es
  | s, .send k m :: es =>
    let r := sends i j forked s es
    if idOf i k = j ∧ s = .open then (m :: r.1, r.2) else r
  | s, .sendAll m :: es =>
    let r := sends i j forked s es
    if s = .open ∧ forked = false then (m :: r.1, r.2) else r
  | s, _ :: es => sends i j forked s es

/-- Node `i` has become `n`, with what it did since in `n.out`. The headers are those at the end. -/
def settle (net : Net) (i : Nat) (n : Node) : Net :=
  let sent (j : Nat) := sends i j (n.peer (ixOf i j)).forked (net.side i j) n.out
  { net with
    node := upd net.node i { n with out := [] }
    side := fun a b => if a = i then (sent b).2 else net.side a b
    chan := fun a b => if a = i then
        net.chan a b ++ (sent b).1.map fun m => { commits := n.commits, hash := n.journal n.commits, payload := .out m }
      else net.chan a b }

/-- Node `i` handles an event of its own. -/
def act (net : Net) (i : Nat) (e : Node.Ev) : Net := settle net i (Node.step (net.node i) e)

inductive Ev where
  /-- `update` of node `i` -/
  | update (i : Nat) (timedOut nothingBlocking : Bool)
  /-- node `j` handles the oldest message of `i` -/
  | deliver (i j : Nat) (mismatch : Bool) (o : DbOutcome)
  /-- node `i` finds its socket for `j` closed (SQLiteNode.cpp:2255-2261) -/
  | lost (i j : Nat)
  /-- `i` and `j` are connected, and each sends its LOGIN (SQLiteNode.cpp:2190-2215, 2238-2244). The side that accepts handles
  the other's LOGIN in the same turn; here that is a delivery of its own. A node that still has an old socket refuses a new one
  (SQLitePeer.cpp:173-187). -/
  | connect (i j : Nat)
  /-- node `i` ends, in whatever way, and starts again with this configuration and database -/
  | restart (i : Nat) (configured : Int) (version : Bytes) (commits : Nat) (journal : Nat → Bytes)
  | setPriority (i : Nat) (new : Int)
  | setShutdownPriority (i : Nat)
  | beginShutdown (i : Nat)
  /-- workers or the replication thread of node `i` change its database -/
  | database (i : Nat) (commits : Nat) (journal : Nat → Bytes)

/-- `_onConnect` (SQLiteNode.cpp:1411-1425). -/
def hello (n : Node) : Packet :=
  { commits := n.commits, hash := n.journal n.commits, payload := .login n.priority n.state n.version }

/-- A node that has called `abort()` does nothing until it is started again. -/
def Net.alive (net : Net) (i : Nat) : Bool := decide (i < net.size) && !(net.node i).dead

def step (net : Net) : Ev → Net
  | .update i t b => if net.alive i then act net i (.update t b) else net
  | .deliver i j mm o =>
    if i < net.size ∧ net.alive j ∧ i ≠ j ∧ net.side j i ≠ .closed then
      match net.chan i j with
      | [] => net
      | p :: rest =>
        act { net with chan := upd2 net.chan i j rest } j
          (.message (ixOf j i) { commitCount := some p.commits, hash := some p.hash, body := body mm p.payload } o)
    else net
  | .lost i j =>
    if net.alive i ∧ j < net.size ∧ i ≠ j ∧ net.side i j ≠ .closed then
      act { net with side := upd2 net.side i j .closed } i (.disconnect (ixOf i j))
    else net
  | .connect i j =>
    if net.alive i ∧ net.alive j ∧ i ≠ j ∧ net.side i j = .closed ∧ net.side j i = .closed then
      { net with
        side := upd2 (upd2 net.side i j .open) j i .open
        chan := upd2 (upd2 net.chan i j [hello (net.node i)]) j i [hello (net.node j)] }
    else net
  | .restart i c v n h =>
    if i < net.size then
      { net with
        node := upd net.node i { Node.init ((net.node i).peers.map Peer.reset) c v n h with out := [] }
        side := fun a b => if a = i then .closed else net.side a b }
    else net
  | .setPriority i p => if net.alive i then act net i (.setPriority p) else net
  | .setShutdownPriority i => if net.alive i then act net i .setShutdownPriority else net
  | .beginShutdown i => if net.alive i then act net i .beginShutdown else net
  | .database i c h => if net.alive i then act net i (.database c h) else net

def run (net : Net) (evs : List Ev) : Net := evs.foldl step net

/-- What node `i` believes of node `j`. -/
def Net.view (net : Net) (i j : Nat) : Peer := (net.node i).peer (ixOf i j)

/-- All nodes have just been started: nobody is connected. -/
def fresh (size : Nat) (configured : Nat → Int) (version : Nat → Bytes) (commits : Nat → Nat) (journal : Nat → Nat → Bytes) : Net :=
  { size
    node := fun i => { Node.init (List.replicate (size - 1) {}) (configured i) (version i) (commits i) (journal i) with out := [] }
    side := fun _ _ => .closed
    chan := fun _ _ => [] }

end Bedrock.Net
