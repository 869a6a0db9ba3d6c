import Verif.Model.Basic

/-!
# The queue between the node and the replication thread: `SQLiteNode::_replicate`

`/repo/sqlitecluster/SQLiteNode.cpp:167-230`, `1345-1373`, `1380-1398`, `1442-1449`, `1547-1577`, `1978-2069`.

A follower does not apply the leader's transactions in the thread that receives them: it queues them for a thread of their
own, which is made with the first and joined when the node stops following.  Steps are what happens under
`_replicateMutex` at once, and single reads and writes of the atomic `_leadPeer`; the two threads interleave in any order.
How one transaction is applied is `Model/Sync.lean` (`replicateOne`); here it succeeds or ends the process.
-/

namespace Bedrock.ReplQueue

/-- The replication thread. -/
inductive Th where
  /-- there is none -/
  | none
  /-- at the top of its loop, before taking the mutex (SQLiteNode.cpp:177-181) -/
  | top
  /-- in `_replicateCV.wait` (183); `woken`: notified since -/
  | waiting (woken : Bool)
  /-- it has a transaction to apply (210) -/
  | busy (m : Nat)
  /-- the transaction is prepared, its status is to be sent, and `_leadPeer` was not null when it was first read (2013) -/
  | status (m : Nat)
  /-- about to commit (219) -/
  | commit (m : Nat)
  /-- it has returned (201) and waits to be joined -/
  | ended
deriving DecidableEq, Repr

/-- The thread that receives messages and changes the state of the node. -/
inductive Pc where
  | idle
  /-- a message was queued (1359-1360), before the thread is made or notified (1363-1367) -/
  | pushed
  /-- `_leadPeer` was cleared before `_changeState` (1383, 1447) -/
  | lost
  /-- the time to exit was set (1556), before the notification (1559) -/
  | leaving
  /-- in `join` (1560) -/
  | joining
  /-- before the queue is cleared (1564) -/
  | clearing
deriving DecidableEq, Repr

structure S where
  /-- `_state == FOLLOWING` -/
  following : Bool := false
  /-- `_leadPeer != nullptr` -/
  lead : Bool := false
  /-- `_replicateThreadShouldExitTime`; `none`: 0 -/
  exitAt : Option Nat := none
  /-- `_replicateQueue` -/
  queue : List Nat := []
  th : Th := .none
  pc : Pc := .idle
  /-- the process has ended by an exception in the thread -/
  died : Bool := false
  /-- a null pointer was used -/
  ub : Bool := false
  /-- history of this time of following: what was queued, what was committed, and what was taken and not applied -/
  accepted : List Nat := []
  applied : List Nat := []
  skipped : List Nat := []
  /-- statuses sent -/
  statuses : List Nat := []
deriving DecidableEq, Repr

inductive Ev where
  /-- the node starts to follow -/
  | follow
  /-- a TRANSACTION is received -/
  | recv (m : Nat)
  /-- the rest of it, after the mutex -/
  | wake
  /-- the leader is lost: `_leadPeer = nullptr`, before `_changeState` -/
  | lose
  /-- `_changeState` to another state, up to its next wait for the thread -/
  | leave (now : Nat)
  | notify
  | join
  | clear
  /-- the thread takes the mutex; `now` is the clock it reads afterwards -/
  | lock (now : Nat)
  /-- the thread comes out of its wait, notified -/
  | woken
  /-- … or not -/
  | spurious
  /-- begin and prepare; `ok`: no exception; `status`: a status is due (2010-2012) -/
  | prepare (ok status : Bool)
  /-- the second read of `_leadPeer`, and the message (2014) -/
  | send
  /-- commit -/
  | commit (ok : Bool)
deriving DecidableEq, Repr

/-- The head of the thread's loop, SQLiteNode.cpp:181-206. -/
def S.lockStep (s : S) (now : Nat) : S :=
  match s.exitAt, s.queue with
  | none, [] => { s with th := .waiting false }
  | none, m :: q => { s with queue := q, th := .busy m }
  | some _, [] => { s with th := .ended }
  | some t, m :: q =>
    if t < now then { s with queue := q, th := .ended, skipped := s.skipped ++ [m] }
    else { s with queue := q, th := .busy m }

/-- `notify_one`. -/
def wakeTh : Th → Th
  | .waiting _ => .waiting true
  | t => t

def S.step (s : S) (e : Ev) : S :=
  if s.died = true ∨ s.ub = true then s
  else match e with
  -- 695, 1336: SUBSCRIBING sets the leader, FOLLOWING follows
  | .follow => if s.pc = .idle ∧ s.following = false then
      { s with following := true, lead := true, accepted := [], applied := [], skipped := [], statuses := [] } else s
  -- 1345-1361
  | .recv m => if s.pc = .idle ∧ s.following = true ∧ s.exitAt = none then
      { s with queue := s.queue ++ [m], pc := .pushed, accepted := s.accepted ++ [m] } else s
  -- 1362-1367
  | .wake => if s.pc = .pushed then
      { s with pc := .idle, th := if s.th = .none then .top else wakeTh s.th } else s
  -- 1382-1384, 1442-1449
  | .lose => if s.pc = .idle ∧ s.following = true then { s with lead := false, pc := .lost } else s
  -- 1553-1557: "exit in 10 seconds"
  | .leave now => if (s.pc = .idle ∨ s.pc = .lost) ∧ s.following = true then
      { s with exitAt := some (now + 10000000), pc := .leaving } else s
  -- 1558-1560
  | .notify => if s.pc = .leaving then
      (if s.th = .none then { s with pc := .clearing } else { s with pc := .joining, th := wakeTh s.th }) else s
  -- 1560-1563
  | .join => if s.pc = .joining ∧ s.th = .ended then { s with th := .none, pc := .clearing } else s
  -- 1564-1577, and the change of state
  | .clear => if s.pc = .clearing then
      { s with queue := [], exitAt := none, lead := false, following := false, pc := .idle } else s
  | .lock now => if s.th = .top then s.lockStep now else s
  | .woken => if s.th = .waiting true then { s with th := .top } else s
  | .spurious => match s.th with | .waiting _ => { s with th := .top } | _ => s
  | .prepare ok status =>
    match s.th with
    | .busy m => if ok = false ∨ s.following = false then { s with died := true }
                 else { s with th := if status = true ∧ s.lead = true then .status m else .commit m }
    | _ => s
  | .send =>
    match s.th with
    | .status m => if s.lead then { s with th := .commit m, statuses := s.statuses ++ [m] } else { s with ub := true }
    | _ => s
  | .commit ok =>
    match s.th with
    | .commit m => if ok = false ∨ s.following = false then { s with died := true }
                   else { s with th := .top, applied := s.applied ++ [m] }
    | _ => s

def S.run (s : S) (es : List Ev) : S := es.foldl S.step s

/-- Whether a follower sends its status with this transaction, SQLiteNode.cpp:2008-2012: `_priority` is not 0 and the number of
commits is a multiple of `MIN_APPROVE_FREQUENCY` (75). -/
def statusDue (priority : Int) (commitCount : Nat) : Bool := priority ≠ 0 && commitCount % 10 = 0

end Bedrock.ReplQueue
