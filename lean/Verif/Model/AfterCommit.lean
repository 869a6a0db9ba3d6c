import Verif.Model.Text

/-!
# What a handle does after `COMMIT`

`SQLite::commit` from the taking of the commit lock to its return (sqlitecluster/SQLite.cpp:1079-1228), any number of
threads, each with a handle of its own: the plugins' callbacks (`runAfterCommitCallbacks`, 1713-1724, gathered in
BedrockServer.cpp:108-113) and the checkpoint of the write-ahead log (`_walHookCallback`, 392-398).

A step is one access to what the threads share.  Left out: logging, timing, HC-tree databases (they have no log and the hook of
the log is never called), `preCheckpointCallback` (no caller gives one), a callback that does not return.
-/

namespace Bedrock.AfterCommit

/-- The callbacks of the plugins, BedrockServer.cpp:108-113: those that have one, in the order of the map. -/
def gather {α : Type} (plugins : List (Bytes × Option α)) : List α := plugins.filterMap (·.2)

/-- Where a thread is. -/
inductive Pc where
  /-- not in `commit`, without the commit lock -/
  | idle
  /-- has the commit lock (`prepare`) -/
  | locked
  /-- `COMMIT` said `SQLITE_BUSY_SNAPSHOT`; `commit` returned, the lock is still held -/
  | conflicted
  /-- committed, the lock given back, about to run callback number `k`: SQLite.cpp:1184, 1715 -/
  | hooks (k : Nat)
  /-- about to `test_and_set`: SQLite.cpp:1191 -/
  | tas
  /-- about to look at `outstandingFramesToCheckpoint`: 1192 -/
  | test
  /-- about to checkpoint: 1195 -/
  | ckpt
  /-- about to set `outstandingFramesToCheckpoint` to 0: 1200 -/
  | zero
  /-- about to clear the flag: 1202 -/
  | clear
  deriving DecidableEq, Repr

/-- What can be observed. -/
inductive Ev where
  | committed (t : Nat)
  | hook (t k : Nat)
  | checkpointed (t : Nat)
  deriving DecidableEq, Repr

structure St where
  pc : Nat → Pc := fun _ => .idle
  /-- the owner of the commit lock -/
  owner : Option Nat := none
  /-- frames in the log that are not in the database file -/
  wal : Nat := 0
  /-- `outstandingFramesToCheckpoint` -/
  outstanding : Nat := 0
  /-- `knownOutstandingFramesToCheckpoint`, the number that STATUS shows -/
  known : Nat := 0
  /-- `checkpointInProgress` -/
  busy : Bool := false
  log : List Ev := []

inductive Act where
  | lock
  /-- `COMMIT` succeeds and writes `frames` frames; `stale` more are in the file of the log though the database file has them -/
  | commit (frames stale : Nat)
  | conflict
  | rollback
  /-- the next step; `left` is what a checkpoint leaves behind (readers may need it), `threw` whether a callback threw -/
  | go (left : Nat) (threw : Bool)
  deriving DecidableEq, Repr

/-- `_walHookCallback`, SQLite.cpp:392-398: the size of the log's file, when there was something to write. -/
def hookSize (before wal frames stale : Nat) : Nat := if frames = 0 then before else wal + frames + stale

def St.at (s : St) (t : Nat) (p : Pc) : St := { s with pc := fun u => if u = t then p else s.pc u }

/-- A callback is run and what it throws is dropped, SQLite.cpp:1715-1723. -/
def runHook (s : St) (t k : Nat) (_threw : Bool) : St :=
  ({ s with log := s.log ++ [.hook t k] } : St).at t (.hooks (k + 1))

/-- One step of a thread, with `n` callbacks; `none` if the thread cannot do that now. -/
def step (n : Nat) (s : St) (t : Nat) : Act → Option St
  | .lock => if s.pc t = .idle ∧ s.owner = none then some (({ s with owner := some t } : St).at t .locked) else none
  | .commit f stale =>
    if s.pc t = .locked then
      some (({ s with owner := none, wal := s.wal + f, outstanding := hookSize s.outstanding s.wal f stale
                      known := hookSize s.known s.wal f stale
                      log := s.log ++ [.committed t] } : St).at t (.hooks 0))
    else none
  | .conflict => if s.pc t = .locked then some (s.at t .conflicted) else none
  | .rollback =>
    if s.pc t = .locked ∨ s.pc t = .conflicted then some (({ s with owner := none } : St).at t .idle) else none
  | .go left threw =>
    match s.pc t with
    | .hooks k => some (if k < n then runHook s t k threw else s.at t .tas)
    | .tas => some (if s.busy then s.at t .idle else ({ s with busy := true } : St).at t .test)
    | .test => some (s.at t (if s.outstanding ≠ 0 then .ckpt else .clear))
    | .ckpt => some (({ s with wal := min left s.wal, log := s.log ++ [.checkpointed t] } : St).at t .zero)
    | .zero => some (({ s with outstanding := 0 } : St).at t .clear)
    | .clear => some (({ s with busy := false } : St).at t .idle)
    | _ => none

/-- A schedule: which thread does what. -/
def runs (n : Nat) (s : St) : List (Nat × Act) → Option St
  | [] => some s
  | (t, a) :: as => (step n s t a).bind fun s => runs n s as

end Bedrock.AfterCommit
