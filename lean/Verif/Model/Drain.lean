/-!
# Model of the last answers of a node that stops

`/repo/sqlitecluster/SQLiteNode.cpp:232-292` (`beginShutdown`, `_isNothingBlockingShutdown`, `shutdownComplete`), `1194-1232` (requests
to help synchronise, each answered by a thread of its own), `/repo/sqlitecluster/SQLitePeer.cpp:46-75` (`remainingDataToSend`),
`294-305` (`sendMessage`), and the end of the loop of the sync thread, `/repo/BedrockServer.cpp:351`.

The check is not one step: the counter is read first, and then one peer after the other is looked at, while the threads and the sockets
go on.  Requests are numbered.  A message is in the buffer of the socket, in that of the kernel, or acknowledged by the other side; that
part of it may be in each is not here.  A peer without a socket is one that is not `up`; what a thread answers to it is dropped.
Peers that have forked, which are sent nothing, are not here.
-/

namespace Bedrock.Drain

/-- A peer: its socket's buffer, the kernel's (`TIOCOUTQ`), and what the other side has acknowledged. -/
structure Conn where
  up : Bool := true
  buf : List Nat := []
  kernel : List Nat := []
  got : List Nat := []

/-- Where the check of the sync thread is. -/
inductive Pc where
  /-- in its loop -/
  | loop
  /-- in `_isNothingBlockingShutdown`: this peer is the next, SQLiteNode.cpp:257-262 -/
  | peer (j : Nat)
  /-- the loop has ended, BedrockServer.cpp:351 -/
  | stopped
  deriving DecidableEq

structure St where
  /-- the number of peers -/
  n : Nat
  conns : Nat → Conn := fun _ => {}
  /-- `_isShuttingDown` -/
  shutting : Bool := false
  /-- `_pendingSynchronizeResponses` -/
  pending : Nat := 0
  /-- threads that have not answered yet: the peer and the request -/
  working : List (Nat × Nat) := []
  /-- threads between the answer and 1230 -/
  sent : List (Nat × Nat) := []
  /-- threads past 1230, whose database handle is still to be returned -/
  counted : List (Nat × Nat) := []
  pc : Pc := .loop
  /-- all requests there were -/
  asked : List (Nat × Nat) := []
  /-- requests whose connection ended after them -/
  lost : List (Nat × Nat) := []

inductive Ev where
  /-- `SYNCHRONIZE`, request `r` of peer `i` -/
  | ask (i r : Nat)
  /-- `beginShutdown` -/
  | begin'
  /-- `shutdownComplete` begins; `ready`: the state is WAITING or below, and no transaction is open -/
  | check (ready : Bool)
  /-- it looks at the next peer; `ok`: `ioctl` succeeds -/
  | look (ok : Bool)
  /-- thread `k` sends its answer -/
  | answer (k : Nat)
  /-- thread `k` counts down -/
  | count (k : Nat)
  /-- thread `k` returns its handle and ends -/
  | finish (k : Nat)
  /-- the socket of peer `i` writes a message, the kernel has one acknowledged, the socket is closed, or opened -/
  | flush (i : Nat)
  | ack (i : Nat)
  | drop (i : Nat)
  | connect (i : Nat)

def St.on (s : St) (i : Nat) (f : Conn → Conn) : St := { s with conns := fun j => if j = i then f (s.conns j) else s.conns j }

/-- `sendMessage`, SQLitePeer.cpp:294-305. -/
def Conn.send (r : Nat) (c : Conn) : Conn := if c.up then { c with buf := c.buf ++ [r] } else c

def Conn.flush (c : Conn) : Conn :=
  match c.buf with
  | [] => c
  | r :: rest => { c with buf := rest, kernel := c.kernel ++ [r] }

def Conn.ack (c : Conn) : Conn :=
  match c.kernel with
  | [] => c
  | r :: rest => { c with kernel := rest, got := c.got ++ [r] }

/-- `remainingDataToSend`, SQLitePeer.cpp:46-75. -/
def Conn.remaining (c : Conn) (ok : Bool) : Bool :=
  if !c.up then false
  else if !c.buf.isEmpty then true
  else if ok then !c.kernel.isEmpty
  else false

/-- `SYNCHRONIZE`, SQLiteNode.cpp:1194-1232. -/
def askStep (s : St) (i r : Nat) : St :=
  if s.pc = .loop ∧ i < s.n ∧ (s.conns i).up then
    if s.shutting then { s.on i (·.send r) with asked := (i, r) :: s.asked }
    else { s with pending := s.pending + 1, working := (i, r) :: s.working, asked := (i, r) :: s.asked }
  else s

/-- The first part of `shutdownComplete`, SQLiteNode.cpp:271-281, 249-255. -/
def checkStep (s : St) (ready : Bool) : St :=
  if s.pc = .loop ∧ s.shutting ∧ ready ∧ s.pending = 0 then { s with pc := .peer 0 } else s

/-- One peer, SQLiteNode.cpp:257-264. -/
def lookStep (s : St) (ok : Bool) : St :=
  match s.pc with
  | .peer j =>
    if j < s.n then
      if (s.conns j).remaining ok then { s with pc := .loop } else { s with pc := .peer (j + 1) }
    else { s with pc := .stopped }
  | _ => s

def step (s : St) : Ev → St
  | .ask i r => askStep s i r
  | .begin' => if s.pc = .loop then { s with shutting := true } else s
  | .check ready => checkStep s ready
  | .look ok => lookStep s ok
  | .answer k =>
    match s.working[k]? with
    | some t => { s.on t.1 (·.send t.2) with working := s.working.eraseIdx k, sent := t :: s.sent }
    | none => s
  | .count k =>
    match s.sent[k]? with
    | some t => { s with sent := s.sent.eraseIdx k, counted := t :: s.counted, pending := s.pending - 1 }
    | none => s
  | .finish k => { s with counted := s.counted.eraseIdx k }
  | .flush i => s.on i Conn.flush
  | .ack i => s.on i Conn.ack
  | .drop i => { s.on i (fun c => { c with up := false, buf := [], kernel := [] }) with
      lost := s.lost ++ s.asked.filter (fun e => e.1 == i) }
  | .connect i => s.on i (fun c => if c.up then c else { c with up := true })

def run (s : St) (evs : List Ev) : St := evs.foldl step s

end Bedrock.Drain
