import Verif.Model.Waiting

/-!
# The commands of one client on many nodes

An answer has the number of commits the node had (`commitCount`: BedrockCore.cpp:210-211, 467-470, BedrockServer.cpp:799), and a
request may have it too: then a node with fewer commits sets the command aside (BedrockServer.cpp:650-668).  A client that always
sends the highest number it was given is modelled here, with any number of other writers.

A commit is in the database before it is counted: `SQLite::commit` runs COMMIT (SQLite.cpp:1108), then `incrementCommit` (1160,
1684-1690), all under the commit lock.  A read sees what was in the database when its transaction began.  Only the leader writes; a
follower applies what the leader has counted and sent it, in order (C02, C98); a new leader continues with what it has.

Simplified: how a write decides what it writes is left open; a transaction is its name; commands that fail or are set aside until
they expire are not in the client's log.
-/

namespace Bedrock.Session

structure Node where
  /-- the transactions in the database -/
  hist : List Nat := []
  /-- `_sharedData.commitCount` -/
  count : Nat := 0
deriving DecidableEq, Repr

/-- The client's command. -/
inductive Cmd where
  | idle
  /-- at a node, before the test of BedrockServer.cpp:656 (or set aside) -/
  | queued (i : Nat)
  /-- past the test -/
  | ready (i : Nat)
  /-- in a transaction that sees `view` -/
  | opened (i : Nat) (view : List Nat)
  /-- committed as number `p`, counting from 0 -/
  | committed (i : Nat) (view : List Nat) (p tx : Nat)
deriving DecidableEq, Repr

/-- A command that was answered: what it saw, what it wrote and where, the number in the answer. -/
structure Done where
  view : List Nat
  wrote : Option (Nat × Nat) := none
  ans : Nat
deriving DecidableEq, Repr

structure World where
  node : Nat → Node := fun _ => {}
  leader : Nat := 0
  cmd : Cmd := .idle
  /-- the highest number the client was given -/
  seen : Nat := 0
  log : List Done := []

inductive Op where
  /-- another client's transaction is in the database of the leader -/
  | commit (tx : Nat)
  /-- a follower has the next transaction in its database -/
  | apply (i : Nat)
  /-- the last transaction of a node is counted -/
  | bump (i : Nat)
  /-- another node leads -/
  | elect (i : Nat)
  /-- the client sends its next command -/
  | send (i : Nat)
  /-- the test of the number -/
  | check
  /-- the transaction begins -/
  | begin
  /-- the command does not read only, and this is not the leader: it is sent there -/
  | escalate
  /-- its write is in the database of the leader -/
  | write (tx : Nat)
  /-- it is answered -/
  | answer
deriving DecidableEq, Repr

def World.set (w : World) (i : Nat) (n : Node) : World := { w with node := fun j => if j = i then n else w.node j }

/-- The commit lock is free: what is in the database is counted. -/
def Node.free (n : Node) : Bool := n.count == n.hist.length

def World.done (w : World) (d : Done) : World := { w with cmd := .idle, seen := max w.seen d.ans, log := w.log ++ [d] }

def step (w : World) : Op → World
  | .commit tx =>
    let n := w.node w.leader
    if n.free then w.set w.leader { n with hist := n.hist ++ [tx] } else w
  | .apply i =>
    let n := w.node i
    let l := w.node w.leader
    match l.hist[n.hist.length]? with
    | some tx => if n.free && i != w.leader && decide (n.hist.length < l.count) then w.set i { n with hist := n.hist ++ [tx] } else w
    | none => w
  | .bump i => w.set i { w.node i with count := (w.node i).hist.length }
  | .elect i => { w with leader := i }
  | .send i => if w.cmd = .idle then { w with cmd := .queued i } else w
  -- BedrockServer.cpp:654-668
  | .check => match w.cmd with
    | .queued i => if Waiting.mustWait w.seen (w.node i).count then w else { w with cmd := .ready i }
    | _ => w
  | .begin => match w.cmd with
    | .ready i => { w with cmd := .opened i (w.node i).hist }
    | _ => w
  -- BedrockServer.cpp:722-733
  | .escalate => match w.cmd with
    | .opened i _ => if i = w.leader then w else { w with cmd := .queued w.leader }
    | _ => w
  | .write tx => match w.cmd with
    | .opened i v =>
      let n := w.node i
      if i = w.leader ∧ n.free = true then
        { (w.set i { n with hist := n.hist ++ [tx] }) with cmd := .committed i v n.hist.length tx }
      else w
    | _ => w
  | .answer => match w.cmd with
    | .opened i v => w.done { view := v, ans := (w.node i).count }
    | .committed i v p tx =>
      -- the thread that answers has counted its commit
      if (w.node i).count ≤ p then w
      -- BedrockServer.cpp:779-787: no longer leading, tried again
      else if i ≠ w.leader then { w with cmd := .queued i }
      else w.done { view := v, wrote := some (p, tx), ans := (w.node i).count }
    | _ => w

def run (w : World) (ops : List Op) : World := ops.foldl step w

end Bedrock.Session
