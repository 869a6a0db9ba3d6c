import Verif.Model.Basic

/-!
# The locks of the database and of the node

`commitLock` and `writeLock` of the database (SQLite.h:402, 424), `_stateMutex` of the node (SQLiteNode.h:324), and the threads that take them:
workers that run commands, the thread that replicates, the sync thread when the node changes state, and the thread behind `BlockWrites`.

A thread is the list of what it has still to do. Which commands there are, how many statements they have, whether they fail, and in which order
the threads run is open.

Simplified:
* `commitLock` is recursive; here a thread that took it twice would wait for itself. No job below takes it twice.
* the methods of the node that only look take `_stateMutex` shared; here they take it alone.
* `prepare` waits for `commitLock` for a limited time (SQLite.cpp:961-991): that it gives up is one of the ends of a transaction, and where it does
  not, it waits here without limit. The sync thread gives up on an exclusive transaction after 5 seconds (522-527): a transaction without statements.
* statements that only read take none of these locks and are left out, as are `_internalStateMutex` and the locks of the pool.
* the answer to `UnblockWrites` and `__quiesceLock`: `UnblockWrites` finds a thread that waits, or changes nothing (BedrockServer.cpp:1844-1859).
-/

namespace Bedrock.Locks

inductive Act where
  | lockState | unlockState
  | lockCommit | unlockCommit
  /-- `writeLock`, shared -/
  | lockShared | unlockShared
  /-- `writeLock`, exclusive -/
  | lockEx | unlockEx
  /-- a statement changes the database, within its transaction -/
  | write
  /-- the row of the journal is written -/
  | journal
  /-- `COMMIT` -/
  | commit
  /-- `sqlite3_wal_checkpoint_v2`: pages go from the log file to the database file -/
  | checkpoint
  /-- waits until the thread has ended -/
  | join (r : Nat)
  /-- `__quiesceShouldUnlock` -/
  | waitTold
deriving DecidableEq, Repr

/-- How a transaction ends. -/
inductive End where
  | rollback
  /-- `prepare` does not get the lock in time, SQLite.cpp:1009-1013, or is told to stop, 999-1008 -/
  | gaveUp
  /-- the row of the journal cannot be written (1066-1071), the commit conflicts (1138-1139) or is refused (1082-1084) -/
  | failed
  /-- committed; the flag: it does the checkpoint, 1191 -/
  | done (ck : Bool)
deriving DecidableEq, Repr

inductive Job where
  /-- a transaction that takes `commitLock` when it commits: so many statements, whether `prepare` deletes from the journal, so many statements of
  the handler that `prepare` calls -/
  | shared (n : Nat) (trim : Bool) (late : Nat) (e : End)
  /-- a transaction that takes `commitLock` at once -/
  | exclusive (n : Nat) (trim : Bool) (late : Nat) (e : End)
  /-- `writeLocalUnreplicated` -/
  | localWrite
  /-- a method of the node that takes `_stateMutex`, SQLiteNode.cpp:234, 269, 311, 328, 1930, 2073, 2493 -/
  | look
  /-- the node changes state; it may end the thread that replicates, and it may disable or enable commits -/
  | change (r : Option Nat) (enable : Bool)
  /-- the thread behind `BlockWrites` -/
  | quiesce
deriving DecidableEq, Repr

/-- `_writeIdempotent`, SQLite.cpp:881-904. -/
def stmt : List Act := [.lockShared, .write, .unlockShared]

def body (n : Nat) : List Act := (List.replicate n stmt).flatten

/-- The part of `prepare` that deletes from the journal, SQLite.cpp:951-958. -/
def trimming (trim : Bool) : List Act := if trim then stmt else []

/-- `prepare` from where it has `commitLock` (SQLite.cpp:1024-1077) and `commit` (1079-1229) or `rollback` (1252-1303). -/
def finish (late : Nat) : End → List Act
  | .rollback => [.unlockCommit]
  | .gaveUp => [.unlockCommit]
  | .failed => body late ++ [.journal, .unlockCommit]
  | .done ck => body late ++ [.journal, .commit, .unlockCommit] ++ if ck then [.checkpoint] else []

def acts : Job → List Act
  -- beginTransaction (SQLite.cpp:517-580), statements, prepare, commit or rollback
  | .shared n trim late e => body n ++
    match e with
    | .rollback => []
    | .gaveUp => trimming trim
    | _ => trimming trim ++ .lockCommit :: finish late e
  -- beginTransaction takes commitLock: SQLite.cpp:521-533
  | .exclusive n trim late e => .lockCommit :: (body n ++ ((if e = .rollback then [] else trimming trim) ++ finish late e))
  -- SQLite.cpp:823-850
  | .localWrite => stmt
  | .look => [.lockState, .unlockState]
  -- `_changeState`, SQLiteNode.cpp:1544-1670: the thread that replicates (1555-1574), `setCommitEnabled` (SQLite.cpp:1673-1682), `exclusiveLockDB`
  -- (SQLite.cpp:478-504), `exclusiveUnlockDB` (506-510)
  | .change r enable => .lockState :: ((match r with | some r => [.join r] | none => []) ++
      ((if enable then [.lockCommit, .unlockCommit] else []) ++
        [.lockCommit, .lockEx, .unlockEx, .unlockCommit, .unlockState]))
  -- BedrockServer.cpp:1815-1835
  | .quiesce => [.lockCommit, .lockEx, .waitTold, .unlockEx, .unlockCommit]

structure St where
  /-- what each thread has still to do -/
  progs : List (List Act)
  state : Option Nat := none
  commit : Option Nat := none
  ex : Option Nat := none
  sh : List Nat := []
  /-- `__quiesceShouldUnlock` -/
  told : Bool := false
  /-- what was done to the database, and by which thread -/
  log : List (Nat × Act) := []
deriving DecidableEq, Repr

def prog (s : St) (t : Nat) : List Act := (s.progs[t]?).getD []

/-- Does the call return? -/
def can (s : St) : Act → Bool
  | .lockState => s.state.isNone
  | .lockCommit => s.commit.isNone
  | .lockShared => s.ex.isNone
  | .lockEx => s.ex.isNone && s.sh.isEmpty
  | .join r => (prog s r).isEmpty
  | .waitTold => s.told
  | _ => true

def effect (s : St) (t : Nat) : Act → St
  | .lockState => { s with state := some t }
  | .unlockState => { s with state := none }
  | .lockCommit => { s with commit := some t }
  | .unlockCommit => { s with commit := none }
  | .lockShared => { s with sh := t :: s.sh }
  | .unlockShared => { s with sh := s.sh.erase t }
  | .lockEx => { s with ex := some t }
  | .unlockEx => { s with ex := none }
  | .join _ => s
  | .waitTold => { s with told := false }
  | a => { s with log := s.log ++ [(t, a)] }

/-- The thread goes on by one call, if the call returns. -/
def step (s : St) (t : Nat) : Option St :=
  match prog s t with
  | [] => none
  | a :: rest => if can s a then some { effect s t a with progs := s.progs.set t rest } else none

inductive Ev where
  | go (t : Nat)
  /-- `UnblockWrites` -/
  | unblock
deriving DecidableEq, Repr

/-- `BlockWrites` of thread `q` has been answered: BedrockServer.cpp:1839-1843. -/
def Blocked (s : St) (q : Nat) : Prop := (prog s q).head? = some .waitTold

instance (s : St) (q : Nat) : Decidable (Blocked s q) := by unfold Blocked; infer_instance

def apply (s : St) : Ev → St
  | .go t => (step s t).getD s
  | .unblock => if s.progs.any (fun p => p.head? = some .waitTold) then { s with told := true } else s

def run (s : St) (evs : List Ev) : St := evs.foldl apply s

/-- Threads with the jobs they will do. -/
def start (jobs : List (List Job)) : St := { progs := jobs.map fun l => l.flatMap acts }

def Job.txn : Job → Bool
  | .shared .. => true
  | _ => false

/-- The thread that is ended when the node changes state does nothing but replicate (`_replicate`, SQLiteNode.cpp:167-230). -/
def Sound (jobs : List (List Job)) : Prop :=
  ∀ l ∈ jobs, ∀ r en, Job.change (some r) en ∈ l → ∀ j ∈ (jobs[r]?).getD [], j.txn = true

end Bedrock.Locks
