import Verif.Model.Sync

/-!
# One leader and its followers

Composition of the database model with the message handling of one term of a leader: broadcasting
(`_sendOutstandingTransactions`), SUBSCRIBE / SUBSCRIPTION_APPROVED, TRANSACTION and the
replication thread (sqlitecluster/SQLiteNode.cpp). Connections are FIFO in both directions and may
be lost at any time. Not modelled here: the election that made the leader (see `Model/Node.lean`)
and what the nodes do after the term, except that messages still in flight are delivered.
-/

namespace Bedrock.Cluster
open Bedrock Bedrock.DB Bedrock.Sync

/-- Messages from the leader to a follower that matter here. -/
inductive LMsg where
  /-- SUBSCRIPTION_APPROVED with what `_queueSynchronize` put into it -/
  | approved (r : SyncReply)
  /-- TRANSACTION -/
  | tx (m : TxMsg)
deriving Repr, DecidableEq

inductive Mode where
  /-- anything before SUBSCRIBING: searching, synchronizing, waiting, or restarting -/
  | idle
  | subscribing
  | following
deriving Repr, DecidableEq

/-- A follower with the two directions of its connection to the leader. -/
structure Fol where
  db : Traced
  mode : Mode := .idle
  /-- `_replicateQueue` -/
  queue : List TxMsg := []
  /-- sent by the leader, not yet handled -/
  inbox : List LMsg := []
  /-- SUBSCRIBE requests sent, not yet handled by the leader: the sender's commit count and hash,
  which every message carries (`_sendToPeer`, SQLiteNode.cpp:1411-1432) -/
  outbox : List (Nat × Bytes) := []

structure Cluster where
  leader : Traced
  /-- `_lastSentTransactionID` -/
  lastSent : Nat
  /-- the leader's state is LEADING -/
  leading : Bool := true
  /-- `peer->subscribed` -/
  subscribed : Nat → Bool := fun _ => false
  fol : Nat → Fol
  /-- record of every TRANSACTION broadcast in this term -/
  sent : List TxMsg := []

/-- What can happen next. -/
inductive Ev where
  /-- any thread of the leader calls the database -/
  | leaderWork (op : Op)
  /-- the leader's sync thread runs `_sendOutstandingTransactions` -/
  | send
  /-- the leader leaves LEADING (thread `t` runs `_changeState`) -/
  | standDown (t : Nat)
  /-- follower `f` enters SUBSCRIBING (its sync thread is `t`) -/
  | subscribe (f t : Nat)
  /-- the leader handles a SUBSCRIBE of `f`; `readOk`: its journal query succeeds -/
  | recvSubscribe (f : Nat) (readOk : Bool)
  /-- `f` handles the next message from the leader -/
  | deliver (f : Nat) (os : Nat → Outcomes)
  /-- the replication thread of `f` handles the next queued transaction -/
  | replicate (f : Nat) (o : Outcomes)
  /-- any other thread of `f` calls the database -/
  | followerWork (f : Nat) (op : Op)
  /-- `f`, not following, applies a SYNCHRONIZE_RESPONSE of some node -/
  | synchronize (f : Nat) (m : SyncMsg) (os : Nat → Outcomes)
  /-- the leader loses its connection to `f` -/
  | lostAtLeader (f : Nat)
  /-- `f` loses its connection to the leader or stops following it -/
  | lostAtFollower (f : Nat)

/-- The callers in the code base never write to or prepare again a prepared transaction
(SQLiteCore.cpp:12-56, SQLiteNode.cpp:210-223, 1794-1811). -/
def callable (s : Sys) : Op → Bool
  | .write h _ _ _ => (s.handles h).uhash.isEmpty
  | .prepare h _ _ _ => (s.handles h).uhash.isEmpty
  | _ => true

/-- The call ended the process. -/
def fatal (op : Op) (o : Out) : Bool :=
  match op with
  | .crash | .crashInCommit _ => true
  | _ => o = .abort

/-- `f` is disconnected, with database `db`: `_onDisconnect` → `_changeState(SEARCHING)`
(SQLiteNode.cpp:1434-1455, 1547-1580). The queue may still be worked on for 10 seconds before it
is cleared; those are `replicate` events that come before this one. (A follower that stops
following without losing the connection does so because the leader's term or its own life is over,
SQLiteNode.cpp:917-937; the messages it then ignores are dropped here.) -/
def lose (c : Cluster) (f : Nat) (db : Traced) : Cluster :=
  { c with fol := upd c.fol f { db := db }, subscribed := upd c.subscribed f false }

/-- The TRANSACTION message for one committed entry (SQLiteNode.cpp:367-374). -/
def toTx (e : Nat × (Bytes × Bytes)) : TxMsg where
  id := some (toString e.1).toUTF8.toList
  newCount := some e.1
  newHash := some e.2.2
  content := e.2.1

/-- The loop of `_sendOutstandingTransactions` (SQLiteNode.cpp:359-380). -/
def sendLoop : Nat → List (Nat × (Bytes × Bytes)) → Nat × List TxMsg
  | last, [] => (last, [])
  | last, e :: es =>
    if e.1 ≤ last then sendLoop last es                 -- already sent
    else
      let r := sendLoop e.1 es
      (r.1, toTx e :: r.2)

/-- The calls a worker thread never gets to make on a node that does not lead: a worker only
commits while its node is LEADING (SQLiteCore.cpp:27-34), and commits are switched on and off by
the sync thread only (SQLiteNode.cpp:1600, 1620). -/
def nodeOnly : Op → Bool
  | .commit _ _ | .crashInCommit _ | .setCommitEnabled _ _ => true
  | _ => false

/-- `_sendOutstandingTransactions` (SQLiteNode.cpp:351-381). -/
def sendOutstanding (env : REnv) (c : Cluster) : Cluster :=
  let r := c.leader.call env.db .pop
  match r.2 with
  | .popped m =>
    let x := sendLoop c.lastSent m
    { c with
      leader := r.1
      lastSent := x.1
      sent := c.sent ++ x.2
      fol := fun f =>
        if c.subscribed f then { c.fol f with inbox := (c.fol f).inbox ++ x.2.map .tx } else c.fol f }
  | _ => { c with leader := r.1 }

def step (env : REnv) (c : Cluster) : Ev → Cluster
  | .leaderWork op =>
    if c.leading = true ∧ op ≠ .pop ∧ callable c.leader.s op = true then
      let r := c.leader.call env.db op
      if fatal op r.2 then { c with leader := r.1, leading := false, subscribed := fun _ => false }
      else { c with leader := r.1 }
    else c
  | .send => if c.leading then sendOutstanding env c else c
  | .standDown t =>
    -- SQLiteNode.cpp:1592-1605
    if c.leading then
      let r := c.leader.call env.db (.setCommitEnabled t false)
      let c1 := { c with leader := r.1 }
      if r.2 = .done then
        { sendOutstanding env c1 with leading := false, subscribed := fun _ => false }
      else c1
    else c
  | .subscribe f t =>
    -- WAITING → SUBSCRIBING, SQLiteNode.cpp:692-699; `_changeState` enables commits (1613-1616),
    -- waiting for the lock if it has to
    let x := c.fol f
    if x.mode = .idle then
      let r := x.db.call env.db (.setCommitEnabled t true)
      if r.2 = .done then
        let req := (r.1.s.commitCount, r.1.s.lastHash)
        let x' := { x with db := r.1, mode := .subscribing, outbox := x.outbox ++ [req] }
        { c with fol := upd c.fol f x' }
      else { c with fol := upd c.fol f { x with db := r.1 } }
    else c
  | .recvSubscribe f readOk =>
    -- SUBSCRIBE, SQLiteNode.cpp:1300-1320; an exception disconnects the peer (1397-1409)
    let x := c.fol f
    match x.outbox with
    | [] => c
    | (pc, ph) :: rest =>
      if !c.leading then lose c f x.db
      else match queueSynchronize env.db c.leader.s (some c.lastSent) pc ph true readOk with
        | .error => lose c f x.db
        | r =>
          let x' := { x with inbox := x.inbox ++ [.approved r], outbox := rest }
          { c with fol := upd c.fol f x', subscribed := upd c.subscribed f true }
  | .deliver f os =>
    let x := c.fol f
    match x.inbox with
    | [] => c
    | .approved r :: rest =>
      -- SUBSCRIPTION_APPROVED, SQLiteNode.cpp:1321-1343; without NumCommits it throws
      match x.mode, r with
      | .subscribing, .commits m =>
        let y := recvSynchronize env x.db 0 m os
        if y.2 then { c with fol := upd c.fol f { x with db := y.1, mode := .following, inbox := rest } }
        else lose c f y.1
      | _, _ => lose c f x.db
    | .tx m :: rest =>
      -- TRANSACTION, SQLiteNode.cpp:1344-1370
      if x.mode = .following then
        { c with fol := upd c.fol f { x with inbox := rest, queue := x.queue ++ [m] } }
      else { c with fol := upd c.fol f { x with inbox := rest } }
  | .replicate f o =>
    let x := c.fol f
    match x.queue with
    | [] => c
    | m :: rest =>
      let y := replicateOne env x.db 1 m o
      match y.2 with
      | .applied => { c with fol := upd c.fol f { x with db := y.1, queue := rest } }
      | .died => lose c f y.1                            -- the process stops
  | .followerWork f op =>
    let x := c.fol f
    if nodeOnly op = false ∧ callable x.db.s op = true then
      let r := x.db.call env.db op
      if fatal op r.2 then lose c f r.1
      else { c with fol := upd c.fol f { x with db := r.1 } }
    else c
  | .synchronize f m os =>
    let x := c.fol f
    if x.mode = .idle then
      { c with fol := upd c.fol f { x with db := (recvSynchronize env x.db 0 m os).1 } }
    else c
  | .lostAtLeader f =>
    { c with subscribed := upd c.subscribed f false,
             fol := upd c.fol f { c.fol f with outbox := [] } }
  | .lostAtFollower f => lose c f (c.fol f).db

def run (env : REnv) (c : Cluster) (evs : List Ev) : Cluster := evs.foldl (step env) c

/-- Entering LEADING (SQLiteNode.cpp:1633-1640): forget what was committed before, and continue
after the last commit. No commit can happen in between: the state is not LEADING yet. -/
def becomeLeader (env : REnv) (leader : Traced) (fol : Nat → Traced) : Cluster :=
  let l := (leader.call env.db .pop).1
  { leader := l, lastSent := l.s.commitCount, fol := fun f => { db := fol f } }

end Bedrock.Cluster
