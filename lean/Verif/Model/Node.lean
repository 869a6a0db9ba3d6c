import Verif.Model.Basic

/-!
# The cluster node's state machine (`SQLiteNode`)

One node with its table of peers, as seen by the sync thread, which is the only thread that
changes it (`_stateMutex`). Everything the node does to the outside is recorded in `out`, every
state it enters in `hist`.

What is abstracted: time (`timedOut` inputs), sockets (a connection breaks when the schedule says
`disconnect`), the database (its commit count and journal hashes change by `database` events and by
the outcome of `_recvSynchronize`; the database itself is in `Verif.Model.DB`, the content of
synchronisation messages in `Verif.Model.Sync`, replication in `Verif.Model.Cluster`), logging,
plugins, the one-second sleep in `_changeState`, `commandAddress`, PING latencies other than as
the given field `latency`. Message headers are already parsed: a missing header is `none`.
-/

namespace Bedrock.Node
open Bedrock

/-- `SQLiteNodeState` (SQLiteNode.h:47-58). -/
inductive NState where
  | unknown | searching | synchronizing | waiting | standingUp | leading | standingDown
  | subscribing | following
deriving DecidableEq, Repr

/-- The numeric order of the enumeration, used by `SWITHIN` and `<`. -/
def NState.rank : NState → Nat
  | .unknown => 0 | .searching => 1 | .synchronizing => 2 | .waiting => 3 | .standingUp => 4
  | .leading => 5 | .standingDown => 6 | .subscribing => 7 | .following => 8

/-- `SQLitePeer::Response`. -/
inductive Response where
  | none | approve | deny
deriving DecidableEq, Repr

/-- `SQLitePeer` (SQLitePeer.h:74-105), without socket and addresses. -/
structure Peer where
  commitCount : Nat := 0
  hash : Bytes := []
  priority : Int := 0
  state : NState := .searching
  permaFollower : Bool := false
  loggedIn : Bool := false
  forked : Bool := false
  subscribed : Bool := false
  standup : Response := .none
  version : Bytes := []
  latency : Nat := 0
deriving DecidableEq, Repr

/-- `SQLitePeer::reset` (SQLitePeer.cpp:70-85): everything but `permaFollower`. -/
def Peer.reset (p : Peer) : Peer := { permaFollower := p.permaFollower }

/-- Messages a node sends (the headers every message carries are left out). -/
inductive OutMsg where
  | state (s : NState) (priority : Int) (scc : Nat)
  /-- `response`: `some true` approve, `some false` deny, `none` no `Response` header -/
  | standupResponse (scc : Option Int) (response : Option Bool)
  | forked
  | synchronize
  | syncShuttingDown
  | syncReply
  | subscribe
  | subscriptionApproved
  | reconnect
deriving DecidableEq, Repr

/-- Everything the node does to the world. -/
inductive Effect where
  | send (peer : Nat) (m : OutMsg)
  /-- to every peer that is not forked -/
  | sendAll (m : OutMsg)
  | shutdownSocket (peer : Nat)
  | blockPort
  | unblockPort
  | setCommitEnabled (b : Bool)
  /-- `_sendOutstandingTransactions` -/
  | sendOutstanding
  /-- subscriptions dropped on leaving leadership -/
  | unsubscribeAll
deriving DecidableEq, Repr

/-- `SQLiteNode` (SQLiteNode.h:225-330). -/
structure Node where
  peers : List Peer
  /-- `_configuredPriority` -/
  configured : Int
  version : Bytes := []
  state : NState := .unknown
  priority : Int := -1
  leadPeer : Option Nat := none
  syncPeer : Option Nat := none
  shuttingDown : Bool := false
  stateChangeCount : Nat := 0
  haveBeenWaiting : Bool := false
  haveSeenSame : Bool := false
  /-- `_blockedCommandPortForBeingBehind` -/
  blocked : Bool := false
  /-- `_db.getCommitCount()` -/
  commits : Nat := 0
  /-- the hash `_db.getCommit` finds for a commit; `[]` if there is no such row -/
  journal : Nat → Bytes := fun _ => []
  commitEnabled : Bool := true
  /-- `abort()` was called -/
  dead : Bool := false
  hist : List NState := []
  out : List Effect := []

namespace Node

def emit (n : Node) (e : Effect) : Node := { n with out := n.out ++ [e] }

def setPeer (n : Node) (i : Nat) (f : Peer → Peer) : Node :=
  { n with peers := n.peers.modify i f }

def peer (n : Node) (i : Nat) : Peer := n.peers.getD i {}

/-- `_sendToPeer` (SQLiteNode.cpp:1517-1527): forked peers get nothing. -/
def send (n : Node) (i : Nat) (m : OutMsg) : Node :=
  if (n.peer i).forked then n else n.emit (.send i m)

/-- `_reconnectPeer` (SQLiteNode.cpp:1911-1916). -/
def reconnectPeer (n : Node) (i : Nat) : Node :=
  (n.setPeer i (fun p => { p with loggedIn := false })).emit (.shutdownSocket i)

/-- `_reconnectAll` (SQLiteNode.cpp:1918-1924). -/
def reconnectAll (n : Node) : Node :=
  { n with
    peers := n.peers.map (fun p => { p with loggedIn := false })
    out := n.out ++ (List.range n.peers.length).map .shutdownSocket }

/-- LEADING or STANDINGDOWN (`SWITHIN(LEADING, s, STANDINGDOWN)`). -/
def inCharge (s : NState) : Bool := NState.leading.rank ≤ s.rank && s.rank ≤ NState.standingDown.rank

/-- `_changeState` (SQLiteNode.cpp:1547-1670). -/
def changeState (n : Node) (new : NState) : Node :=
  if new = n.state then n
  else
    -- 1554-1580
    let n := if n.state = .following then { n with leadPeer := none } else n
    -- 1597-1611
    let n := if inCharge n.state && !inCharge new then
        { n with
          commitEnabled := false
          peers := n.peers.map (fun p => { p with subscribed := false })
          out := n.out ++ [.setCommitEnabled false, .sendOutstanding, .unsubscribeAll] }
      else n
    -- 1614-1617
    let n := if new.rank < NState.subscribing.rank then { n with leadPeer := none } else n
    -- 1620-1622
    let n := if new ≠ .searching then
        { n with commitEnabled := true, out := n.out ++ [.setCommitEnabled true] }
      else n
    -- 1637-1652
    let n := if new = .waiting ∧ n.haveBeenWaiting = false then
        let n := { n with haveBeenWaiting := true }
        if n.haveSeenSame then reconnectAll { n with priority := n.configured } else n
      else n
    -- 1654-1668
    { n with
      state := new
      stateChangeCount := n.stateChangeCount + 1
      hist := n.hist ++ [new]
      out := n.out ++ [.sendAll (.state new n.priority (n.stateChangeCount + 1))] }

/-- A node that was just constructed (SQLiteNode.cpp:113-150). -/
def init (peers : List Peer) (configured : Int) (version : Bytes) (commits : Nat)
    (journal : Nat → Bytes) : Node :=
  changeState { peers, configured, version, commits, journal } .searching

/-! ### `update` -/

/-- The peer with the most commits; the first of several (SQLiteNode.cpp:522-530, 653-656). -/
def freshest (ps : List Peer) : Option Peer :=
  ps.foldl (fun acc p => match acc with
    | none => some p
    | some q => if q.commitCount < p.commitCount then some p else some q) none

/-- The peer with the highest priority; the first of several (SQLiteNode.cpp:659-661). -/
def highest (ps : List Peer) : Option Peer :=
  ps.foldl (fun acc p => match acc with
    | none => some p
    | some q => if q.priority < p.priority then some p else some q) none

/-- STANDINGUP, LEADING or STANDINGDOWN. -/
def leadish (s : NState) : Bool := s = .standingUp || s = .leading || s = .standingDown

/-- A peer that counts for quorum. -/
def full (p : Peer) : Bool := !p.permaFollower

/-- One round of the loop of `_updateSyncPeer` (SQLiteNode.cpp:1827-1864). -/
def syncCandidate (commits : Nat) (acc : Option (Nat × Peer) × Option Nat) (x : Peer × Nat) :
    Option (Nat × Peer) × Option Nat :=
  let p := x.1
  if !p.loggedIn || p.commitCount ≤ commits then acc
  else if p.forked then acc
  else if leadish p.state then (acc.1, some x.2)
  else match acc.1 with
    | none => (some (x.2, p), acc.2)
    | some (j, q) =>
      if q.latency = p.latency then
        if q.commitCount < p.commitCount then (some (x.2, p), acc.2) else (some (j, q), acc.2)
      else if q.latency = 0 then (some (x.2, p), acc.2)
      else if p.latency ≠ 0 ∧ p.latency < q.latency then (some (x.2, p), acc.2)
      else (some (j, q), acc.2)

/-- `_updateSyncPeer` (SQLiteNode.cpp:1822-1909). -/
def updateSyncPeer (n : Node) : Node :=
  let r := n.peers.zipIdx.foldl (syncCandidate n.commits) (none, none)
  { n with syncPeer := (r.1.map (·.1)).or r.2 }

/-- SEARCHING (SQLiteNode.cpp:477-569). -/
def updateSearching (n : Node) : Node :=
  if n.shuttingDown then n
  else if n.peers.isEmpty then changeState { n with priority := n.configured } .leading
  else
    let numFull := n.peers.countP full
    let numLoggedIn := n.peers.countP (fun p => full p && p.loggedIn)
    if numLoggedIn * 2 < numFull then n
    else match freshest (n.peers.filter (fun p => p.loggedIn && !p.forked)) with
      | none => n
      | some f =>
        if f.commitCount ≤ n.commits then changeState n .waiting
        else
          let n := updateSyncPeer n
          match n.syncPeer with
          | some i => changeState (n.send i .synchronize) .synchronizing
          | none => n

/-- SYNCHRONIZING (SQLiteNode.cpp:576-597). `_reconnectPeer` would dereference a null pointer if
there were no sync peer; `dead` here. -/
def updateSynchronizing (n : Node) (timedOut : Bool) : Node :=
  if n.shuttingDown || timedOut then
    match n.syncPeer with
    | some i => changeState { reconnectPeer n i with syncPeer := none } .searching
    | none => { n with dead := true }
  else n

/-- Peers considered in WAITING: full and not forked (SQLiteNode.cpp:641-651). -/
def eligible (p : Peer) : Bool := full p && !p.forked

/-- The last logged-in eligible peer that leads or tries to (SQLiteNode.cpp:664-671). -/
def currentLeader (ps : List Peer) : Option Nat :=
  ps.zipIdx.foldl (fun acc x =>
    if eligible x.1 && x.1.loggedIn && leadish x.1.state then some x.2 else acc) none

/-- WAITING (SQLiteNode.cpp:616-731). -/
def updateWaiting (n : Node) : Node :=
  if n.shuttingDown then changeState n .searching
  else
    let numFull := n.peers.countP eligible
    let cand := n.peers.filter (fun p => eligible p && p.loggedIn)
    let leader := currentLeader n.peers
    match highest cand, freshest cand with
    | some h, some f =>
      match leader with
      | some l =>
        if n.priority < h.priority ∧ (n.peer l).state = .leading then
          changeState ({ n with leadPeer := some l }.send l .subscribe) .subscribing
        else if n.commits < f.commitCount then changeState n .searching
        else n
      | none =>
        if n.commits < f.commitCount then changeState n .searching
        else if numFull ≤ cand.length * 2 ∧ 0 < n.priority ∧ h.priority < n.priority then
          changeState { n with peers := n.peers.map (fun p => { p with standup := .none }) } .standingUp
        else n
    | _, _ => changeState n .searching

/-- STANDINGUP (SQLiteNode.cpp:743-797). -/
def updateStandingUp (n : Node) (timedOut : Bool) : Node :=
  if n.shuttingDown then changeState n .searching
  else if n.peers.any (fun p => full p && p.loggedIn && p.standup = .deny) then changeState n .searching
  else
    let numFull := n.peers.countP full
    let numLoggedIn := n.peers.countP (fun p => full p && p.loggedIn)
    let approved := n.peers.countP (fun p => full p && p.loggedIn && p.standup = .approve)
    if numFull ≤ numLoggedIn * 2 ∧ numFull ≤ approved * 2 then changeState n .leading
    else if timedOut then changeState n .searching
    else n

/-- A reason to stand down found in the peer table (SQLiteNode.cpp:835-856). -/
def standDownFor (n : Node) (p : Peer) : Bool :=
  if p.state = .leading then true
  else if p.state = .waiting then n.priority < p.priority || n.commits < p.commitCount
  else false

/-- LEADING and STANDINGDOWN (SQLiteNode.cpp:814-884). -/
def updateLeading (n : Node) : Node :=
  let n := n.emit .sendOutstanding
  let n :=
    if n.state = .leading then
      if n.priority = 1 then changeState n .standingDown
      else if n.shuttingDown then changeState { n with priority := 1 } .standingDown
      else if n.peers.any (standDownFor n) then changeState n .standingDown
      else n
    else n
  if n.state = .standingDown then
    let n := if n.shuttingDown then
        { n with out := n.out ++ (List.range n.peers.length).map .shutdownSocket } else n
    changeState n .searching
  else n

/-- SUBSCRIBING (SQLiteNode.cpp:890-907). -/
def updateSubscribing (n : Node) (timedOut : Bool) : Node :=
  if n.shuttingDown then changeState n .searching
  else if timedOut then
    match n.leadPeer with
    | some i => changeState { reconnectPeer n i with leadPeer := none } .searching
    | none => { n with dead := true }
  else n

/-- FOLLOWING (SQLiteNode.cpp:916-939). `SASSERT(_leadPeer)`. -/
def updateFollowing (n : Node) (nothingBlocking : Bool) : Node :=
  if n.shuttingDown && nothingBlocking then changeState n .searching
  else match n.leadPeer with
    | none => { n with dead := true }
    | some l =>
      if (n.peer l).state ≠ .leading ∧ (n.peer l).state ≠ .standingDown then changeState n .searching
      else n

/-- `update` (SQLiteNode.cpp:451-947). -/
def update (n : Node) (timedOut nothingBlocking : Bool) : Node :=
  match n.state with
  | .unknown => { n with dead := true }          -- SERROR
  | .searching => updateSearching n
  | .synchronizing => updateSynchronizing n timedOut
  | .waiting => updateWaiting n
  | .standingUp => updateStandingUp n timedOut
  | .leading | .standingDown => updateLeading n
  | .subscribing => updateSubscribing n timedOut
  | .following => updateFollowing n nothingBlocking

/-! ### Messages -/

/-- What a peer's message says, after header parsing. -/
inductive Body where
  | login (priority : Option Int) (state : Option NState) (version : Option Bytes) (scc : Option Int)
  | state (state : Option NState) (priority : Option Int) (scc : Option Int)
  /-- `response`: the `Response` header, `some true` for "approve" in any case -/
  | standupResponse (scc : Option Int) (response : Option Bool)
  | synchronize
  | synchronizeResponse (hashMismatch : Bool)
  | subscribe
  | subscriptionApproved
  | transaction
  | followerStatus
  | forked
  | other
deriving DecidableEq, Repr

structure Msg where
  commitCount : Option Nat
  hash : Option Bytes
  body : Body
deriving DecidableEq, Repr

/-- How the database work of a message turns out. -/
structure DbOutcome where
  /-- `_recvSynchronize` did not throw -/
  recvOk : Bool := true
  /-- commit count and journal after it -/
  commits : Nat := 0
  journal : Nat → Bytes := fun _ => []
  /-- `_queueSynchronize` did not throw -/
  queueOk : Bool := true

/-- `uint64_t` difference converted to `int64_t` (SQLiteNode.cpp:992). -/
def signedDiff (a b : Nat) : Int :=
  let d : Nat := (a + 2 ^ 64 - b) % 2 ^ 64
  if d < 2 ^ 63 then (d : Int) else (d : Int) - 2 ^ 64

/-- The command-port hysteresis (SQLiteNode.cpp:988-1006). -/
def checkLag (n : Node) (i : Nat) : Node :=
  let diff := signedDiff (n.peer i).commitCount n.commits
  if n.leadPeer = some i ∧ 12500 ≤ diff ∧ n.blocked = false then
    { n.emit .blockPort with blocked := true }
  else if diff < 1000 ∧ n.blocked = true then
    { n.emit .unblockPort with blocked := false }
  else n

/-- The exception path of `_onMESSAGE` (SQLiteNode.cpp:1397-1409). -/
def fail (n : Node) (i : Nat) : Node := (n.send i .reconnect).emit (.shutdownSocket i)

/-- `_majoritySubscribed` (SQLiteNode.cpp:1934-1950). -/
def majoritySubscribed (n : Node) : Bool :=
  n.peers.countP full ≤ n.peers.countP (fun p => full p && p.subscribed) * 2

/-- `_dieIfForkedFromCluster` (SQLiteNode.cpp:2466-2487). -/
def dieIfForked (n : Node) : Node :=
  let quorum := n.peers.countP full + (if n.configured ≠ 0 then 1 else 0)
  let forked := n.peers.countP (fun p => full p && p.forked)
  if (quorum + 1) / 2 ≤ forked then { n with dead := true } else n

/-- `_sendStandupResponse` (SQLiteNode.cpp:2379-2464); `scc` is the request's StateChangeCount. -/
def sendStandupResponse (n : Node) (i : Nat) (scc : Option Int) : Node :=
  let p := n.peer i
  if p.permaFollower then n.send i (.standupResponse scc (some false))
  else if leadish n.state then
    if n.priority < p.priority then
      let n := if n.state = .standingUp then changeState n .searching
        else if n.state = .leading then changeState n .standingDown
        else n
      n.send i (.standupResponse scc none)
    else
      let n := if majoritySubscribed n then n else changeState (reconnectAll n) .searching
      n.send i (.standupResponse scc (some false))
  else
    let contested := n.peers.zipIdx.any (fun x => x.2 != i && leadish x.1.state)
    n.send i (.standupResponse scc (some (!contested)))

/-- LOGIN, storing what the peer says (SQLiteNode.cpp:1034-1062). -/
def loginRecord (n : Node) (i : Nat) (prio : Int) (st : NState) (ver : Bytes) : Node :=
  let n := n.setPeer i (fun p =>
    { p with priority := prio, version := ver, state := st, permaFollower := prio = 0 })
  if n.haveSeenSame = false ∧ ver = n.version then
    let n := { n with haveSeenSame := true }
    if n.haveBeenWaiting then reconnectAll { n with priority := n.configured } else n
  else n

/-- LOGIN, comparing the peer's last commit with our journal (SQLiteNode.cpp:1064-1078). -/
def loginCheck (n : Node) (i : Nat) : Node :=
  if (n.peer i).hash ≠ [] ∧ (n.peer i).commitCount ≤ n.commits ∧
      (n.peer i).hash ≠ n.journal (n.peer i).commitCount then
    dieIfForked ((n.send i .forked).setPeer i (fun p => { p with forked := true }))
  else n.setPeer i (fun p => { p with loggedIn := true })

/-- LOGIN (SQLiteNode.cpp:1008-1084). -/
def onLogin (n : Node) (i : Nat) (priority : Option Int) (state : Option NState)
    (version : Option Bytes) (scc : Option Int) : Node :=
  if (n.peer i).loggedIn then fail n i
  else match priority, state, version with
    | some prio, some st, some ver =>
      if n.priority ≠ -1 ∧ n.priority ≠ 0 ∧ n.priority ≠ 1 ∧ prio = n.priority then reconnectPeer n i
      else
        let n := loginCheck (loginRecord n i prio st ver) i
        if n.dead then n
        else if st = .standingUp then sendStandupResponse n i scc
        else n
    | _, _, _ => fail n i

/-- STATE (SQLiteNode.cpp:1087-1167). -/
def onState (n : Node) (i : Nat) (state : Option NState) (priority : Option Int) (scc : Option Int) :
    Node :=
  match state, priority with
  | some st, some prio =>
    let from' := (n.peer i).state
    let n := n.setPeer i (fun p => { p with priority := prio, permaFollower := prio = 0, state := st })
    if from' = st then n
    else if st = .searching then n.setPeer i (fun p => { p with subscribed := false })
    else if st = .standingUp then sendStandupResponse n i scc
    else n
  | _, _ => fail n i

/-- STANDUP_RESPONSE (SQLiteNode.cpp:1168-1193). An unset header counts as 0. -/
def onStandupResponse (n : Node) (i : Nat) (scc : Option Int) (response : Option Bool) : Node :=
  if n.state = .standingUp then
    if scc.getD 0 ≠ (n.stateChangeCount : Int) then n
    else match response with
      | none => fail n i
      | some r => n.setPeer i (fun p => { p with standup := if r then .approve else .deny })
  else n

/-- SYNCHRONIZE_RESPONSE (SQLiteNode.cpp:1233-1299). -/
def onSynchronizeResponse (n : Node) (i : Nat) (hashMismatch : Bool) (o : DbOutcome) : Node :=
  if n.state ≠ .synchronizing then fail n i
  else if hashMismatch then
    let n := dieIfForked (n.setPeer i (fun p => { p with forked := true }))
    if n.dead then n else fail n i
  else if n.syncPeer ≠ some i then fail n i
  else
    let n := { n with commits := o.commits, journal := o.journal }
    if o.recvOk = false then
      fail (changeState { reconnectPeer n i with syncPeer := none } .searching) i
    else
      let pc := (n.peer i).commitCount
      if n.commits = pc then changeState { n with syncPeer := none } .waiting
      else if pc < n.commits then changeState { reconnectPeer n i with syncPeer := none } .searching
      else
        let n := updateSyncPeer n
        match n.syncPeer with
        | some j => n.send j .synchronize
        | none => changeState n .searching

/-- SUBSCRIPTION_APPROVED (SQLiteNode.cpp:1321-1343). -/
def onSubscriptionApproved (n : Node) (i : Nat) (o : DbOutcome) : Node :=
  if n.state ≠ .subscribing then fail n i
  else if n.leadPeer ≠ some i then fail n i
  else
    let n := { n with commits := o.commits, journal := o.journal }
    if o.recvOk then changeState n .following
    else fail (changeState (reconnectPeer n i) .searching) i

/-- FORKED (SQLiteNode.cpp:1376-1395). -/
def onForked (n : Node) (i : Nat) : Node :=
  let n := dieIfForked (n.setPeer i (fun p => { p with forked := true }))
  if n.dead then n
  else
    let n := if n.leadPeer = some i then changeState { n with leadPeer := none } .searching else n
    if n.syncPeer = some i then
      let n := { n with syncPeer := none }
      if n.state = .synchronizing then changeState n .searching else n
    else n

/-- A message other than LOGIN from a peer that is logged in (SQLiteNode.cpp:1085-1396). LOGIN is
handled in `dispatch`. -/
def onLoggedIn (n : Node) (i : Nat) (body : Body) (o : DbOutcome) : Node :=
  match body with
  | .state state priority scc => onState n i state priority scc
  | .standupResponse scc response => onStandupResponse n i scc response
  | .synchronize =>
    if n.shuttingDown then n.send i .syncShuttingDown
    else if o.queueOk then n.send i .syncReply else fail n i
  | .synchronizeResponse hm => onSynchronizeResponse n i hm o
  | .subscribe =>
    if n.state ≠ .leading then fail n i
    else if o.queueOk = false then fail n i
    else (n.send i .subscriptionApproved).setPeer i (fun p => { p with subscribed := true })
  | .subscriptionApproved => onSubscriptionApproved n i o
  | .forked => onForked n i
  | .login .. | .transaction | .followerStatus | .other => n

/-- LOGIN, or a message that needs a login (SQLiteNode.cpp:1008, 1085). -/
def dispatch (n : Node) (i : Nat) (body : Body) (o : DbOutcome) : Node :=
  match body with
  | .login priority state version scc => onLogin n i priority state version scc
  | body => if (n.peer i).loggedIn then onLoggedIn n i body o else fail n i

/-- `_onMESSAGE` (SQLiteNode.cpp:951-1410) for everything but PING and PONG. -/
def onMessage (n : Node) (i : Nat) (m : Msg) (o : DbOutcome) : Node :=
  if (n.peer i).forked then n
  else match m.commitCount, m.hash with
    | some c, some h =>
      dispatch (checkLag (n.setPeer i (fun p => { p with commitCount := c, hash := h })) i) i m.body o
    | _, _ => fail n i

/-- `_onDisconnect` after `peer->reset()` (SQLiteNode.cpp:2255-2260, 1434-1503). -/
def onDisconnect (n : Node) (i : Nat) : Node :=
  let n := n.setPeer i Peer.reset
  let n := if n.leadPeer = some i then changeState { n with leadPeer := none } .searching else n
  let n := if n.syncPeer = some i then changeState { n with syncPeer := none } .searching else n
  if leadish n.state then
    let others := n.peers.eraseIdx i
    if others.countP (fun p => full p && p.loggedIn) * 2 < others.countP full then
      changeState n .searching
    else n
  else n

/-- `setShutdownPriority` (SQLiteNode.cpp:308-325). -/
def setShutdownPriority (n : Node) : Node :=
  let n := { n with priority := 1 }
  if n.state = .leading then n
  else n.emit (.sendAll (.state n.state 1 n.stateChangeCount))

inductive SetPriorityResult where
  | refused (code : Nat)
  | ok (old : Int)
deriving DecidableEq, Repr

/-- `setPriority` (SQLiteNode.cpp:2489-2584). -/
def setPriority (n : Node) (new : Int) : Node × SetPriorityResult :=
  if new < 0 ∨ new = 1 then (n, .refused 400)
  else if n.peers.any (fun p => p.loggedIn && 0 < new && p.priority = new) then (n, .refused 409)
  else
    let higherFollowing := n.peers.any (fun p => p.loggedIn && new < p.priority && p.state = .following)
    let otherFull := n.peers.countP full
    if new = 0 ∧ 0 < n.priority ∧ otherFull < (n.peers.length + 1 + 1) / 2 then (n, .refused 409)
    else
      let old := n.configured
      if old = new then (n, .ok old)
      else
        let n := { n with configured := new }
        if n.priority = -1 ∨ n.priority = 1 then (n, .ok old)
        else
          let n := { n with priority := new }.emit (.sendAll (.state n.state new n.stateChangeCount))
          if n.state = .leading ∧ higherFollowing = true then (changeState n .standingDown, .ok old)
          else if n.state = .following then
            match n.leadPeer with
            | some l =>
              if (n.peer l).loggedIn ∧ (n.peer l).state = .leading ∧ (n.peer l).priority < new then
                (changeState n .searching, .ok old)
              else (n, .ok old)
            | none => (n, .ok old)
          else (n, .ok old)

/-! ### Histories -/

inductive Ev where
  | update (timedOut nothingBlocking : Bool)
  | message (peer : Nat) (m : Msg) (o : DbOutcome)
  | disconnect (peer : Nat)
  | setPriority (new : Int)
  | setShutdownPriority
  | beginShutdown
  /-- workers or the replication thread change the database -/
  | database (commits : Nat) (journal : Nat → Bytes)

/-- Messages come only from configured peers (SQLiteNode.cpp:2190-2215). -/
def step (n : Node) (ev : Ev) : Node :=
  if n.dead then n
  else match ev with
    | .update t b => update n t b
    | .message i m o => if i < n.peers.length then onMessage n i m o else n
    | .disconnect i => if i < n.peers.length then onDisconnect n i else n
    | .setPriority p => (setPriority n p).1
    | .setShutdownPriority => setShutdownPriority n
    | .beginShutdown => { n with shuttingDown := true }
    | .database c j => { n with commits := c, journal := j }

def run (n : Node) (evs : List Ev) : Node := evs.foldl step n

end Node
end Bedrock.Node
