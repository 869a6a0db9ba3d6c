/-!
# How a leader stands down, next to its workers

`SQLiteNode::update` in LEADING and STANDINGDOWN (SQLiteNode.cpp:812-880) and `_changeState` to SEARCHING (1547-1668), one step of the sync
thread at a time, with commits of worker threads in between. `_sendOutstandingTransactions` (351-381) takes every transaction
that is counted and not yet sent (`incrementCommit` enters it in the feed and counts it under the same lock, SQLite.cpp:1684-1690) and gives
it to each subscribed peer. `setCommitEnabled(false)` takes the commit lock (SQLite.cpp:1673-1682), so it waits for commits under way.

`sendMessage` appends to the send buffer of a socket that is not shut down (SQLitePeer.cpp:291-305); the bytes go out later (STCPManager.cpp:97-126).
`shutdownSocket` calls `shutdown(SHUT_RDWR)` at once (SQLitePeer.cpp:91-97, STCPManager.cpp:184-189): what is in the buffer then is discarded, since
the next attempt to send fails (STCPManager.cpp:152-159).

Simplified: a transaction is its number; forked peers are left out; a SUBSCRIPTION_APPROVED is the transactions in it.
-/

namespace Bedrock.StandDown

/-- What a socket carries: a transaction, or the STATE that says SEARCHING. -/
inductive Msg where
  | tx (n : Nat)
  | searching
deriving DecidableEq, Repr

structure Peer where
  subscribed : Bool := false
  /-- the socket is there and not shut down -/
  linked : Bool := true
  /-- the commits it had when it subscribed -/
  base : Nat := 0
  /-- the send buffer -/
  buf : List Msg := []
  /-- what went out -/
  wire : List Msg := []
deriving DecidableEq, Repr

/-- The next step of the sync thread. -/
inductive Pc where
  /-- an update begins, SQLiteNode.cpp:821 -/
  | idle
  /-- is there a reason to stand down? 824-862 -/
  | judge
  /-- close the sockets? 868-876 -/
  | close
  /-- `setCommitEnabled(false)`, 1600 -/
  | disable
  /-- `_sendOutstandingTransactions`, 1604 -/
  | send
  /-- drop the subscriptions, 1607-1609; send STATE, 1660-1666 -/
  | leave
  /-- it is SEARCHING -/
  | gone
deriving DecidableEq, Repr

structure S where
  pc : Pc := .idle
  /-- `_isShuttingDown` -/
  shutting : Bool := false
  /-- `_commitEnabled` -/
  enabled : Bool := true
  commits : Nat
  /-- `_lastSentTransactionID` -/
  sent : Nat
  peer : Nat → Peer := fun _ => {}
  /-- the subscribers it had at the end -/
  had : Nat → Bool := fun _ => false
  /-- it has closed the sockets -/
  cut : Bool := false

inductive Ev where
  /-- a worker commits -/
  | commit
  /-- a step of the sync thread; `reason`: something other than a shutdown makes it stand down -/
  | sync (reason : Bool)
  /-- a SUBSCRIBE of a peer with so many commits, between updates; SQLiteNode.cpp:1300-1320 -/
  | subscribe (i base : Nat)
  /-- a peer is lost, between updates; SQLiteNode.cpp:1430-1501 -/
  | lose (i : Nat)
  /-- the oldest message in the buffer goes out -/
  | flush (i : Nat)
  /-- `beginShutdown`, between updates; SQLiteNode.cpp:232-243 -/
  | beginShutdown
deriving DecidableEq, Repr

/-- The transactions after `a`, up to `b`. -/
def txs (a b : Nat) : List Msg := (List.range (b - a)).map fun k => .tx (a + 1 + k)

/-- `SQLitePeer::sendMessage`, SQLitePeer.cpp:291-305. -/
def Peer.put (p : Peer) (l : List Msg) : Peer := if p.linked then { p with buf := p.buf ++ l } else p

/-- `_sendOutstandingTransactions`, SQLiteNode.cpp:351-381. -/
def S.sendAll (s : S) : S :=
  { s with
    peer := fun i => if (s.peer i).subscribed then (s.peer i).put (txs s.sent s.commits) else s.peer i
    sent := max s.sent s.commits }

def S.sync (s : S) (reason : Bool) : S := match s.pc with
  | .idle => { s.sendAll with pc := .judge }
  | .judge => { s with pc := if reason || s.shutting then .close else .idle }
  | .close =>
    if s.shutting then { s with peer := fun i => { s.peer i with linked := false }, cut := true, pc := .disable }
    else { s with pc := .disable }
  | .disable => { s with enabled := false, pc := .send }
  | .send => { s.sendAll with pc := .leave }
  | .leave =>
    { s with
      had := fun i => (s.peer i).subscribed
      peer := fun i => { (s.peer i).put [.searching] with subscribed := false }
      pc := .gone }
  | .gone => s

def S.setPeer (s : S) (i : Nat) (p : Peer) : S := { s with peer := fun j => if j = i then p else s.peer j }

def step (s : S) : Ev → S
  | .commit => if s.enabled then { s with commits := s.commits + 1 } else s
  | .sync r => s.sync r
  | .subscribe i b =>
    if s.pc = .idle ∧ (s.peer i).linked = true ∧ (s.peer i).subscribed = false ∧ b ≤ s.commits then
      s.setPeer i { (s.peer i).put (txs b s.commits) with subscribed := true, base := b }
    else s
  | .lose i =>
    if s.pc = .idle then s.setPeer i { s.peer i with subscribed := false, linked := false } else s
  | .flush i =>
    match (s.peer i).buf with
    | [] => s
    | m :: rest => if (s.peer i).linked then s.setPeer i { s.peer i with buf := rest, wire := (s.peer i).wire ++ [m] } else s
  | .beginShutdown => if s.pc = .idle then { s with shutting := true } else s

def run (s : S) (evs : List Ev) : S := evs.foldl step s

/-- A node that has just become LEADING (SQLiteNode.cpp:1639-1645). -/
def start (commits : Nat) : S := { commits, sent := commits }

end Bedrock.StandDown
