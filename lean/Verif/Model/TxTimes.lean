/-!
# The times that are logged for a transaction

The counters of `SQLite` (sqlitecluster/SQLite.h:486-495): `beginTransaction` (SQLite.cpp:516-580), `read` (674-724),
`_writeIdempotent` (851-912), `prepare` (1018-1077), `commit` (1079-1229), `rollback` (1252-1304) and
`logLastTransactionTiming` (1307-1325).  One clock in microseconds stands for `STimeNow` and for the steady clock of
`_transactionTimer`; how long things take is a parameter of each call.  The lock of commits and its timer, and the refusal of
a handle that is left with an uncommitted query, are not here.
-/

namespace Bedrock.TxTimes

/-- What is logged, in milliseconds, SQLite.cpp:1312-1321. -/
structure Report where
  totalElapsed : Nat
  readElapsed : Nat
  writeElapsed : Nat
  prepareElapsed : Nat
  commitElapsed : Nat
  rollbackElapsed : Nat
  totalTransactionElapsed : Nat
  beginElapsed : Nat
deriving DecidableEq

structure St where
  now : Nat := 0
  /-- `_lastStart` of `_transactionTimer` -/
  start : Nat := 0
  inside : Bool := false
  begin_ : Nat := 0
  read : Nat := 0
  write : Nat := 0
  prep : Nat := 0
  commit : Nat := 0
  roll : Nat := 0
  total : Nat := 0
  logs : List Report := []
deriving DecidableEq

/-- `logLastTransactionTiming`, SQLite.cpp:1307-1325. -/
def report (s : St) : Report where
  totalElapsed := (s.begin_ + s.read + s.write + s.prep + s.commit + s.roll) / 1000
  readElapsed := s.read / 1000
  writeElapsed := s.write / 1000
  prepareElapsed := s.prep / 1000
  commitElapsed := s.commit / 1000
  rollbackElapsed := s.roll / 1000
  totalTransactionElapsed := s.total / 1000
  beginElapsed := s.begin_ / 1000

def log (s : St) : St := { s with logs := s.logs ++ [report s] }

/-- `rollback`, SQLite.cpp:1252-1304.  `auto`: SQLite has rolled back already; `d`: what the statement takes. -/
def rollback (s : St) (auto : Bool) (d : Nat) : St :=
  if s.inside then
    let s := { s with total := s.now - s.start }
    let s := if auto then s else { s with now := s.now + d, roll := s.roll + d }
    log { s with inside := false }
  else log { s with total := 0 }

inductive Op where
  /-- the command does something else -/
  | idle (d : Nat)
  /-- `w`: until the lock is held, for an exclusive transaction; `d`: the statement; `r`: to roll back one that was left open -/
  | begin_ (w d r : Nat)
  | read (d : Nat)
  /-- `constraint`: it fails by a constraint, and throws -/
  | write (d : Nat) (constraint : Bool)
  /-- `w`: trimming the journal, the lock, the handler; `d`: the insertion; `ok`; `r`: to roll back -/
  | prepare (w d : Nat) (ok : Bool) (r : Nat)
  /-- `d`: the statement; `ok`: no conflict; `hct`: an HC-Tree database, and what the query of its statistics takes; `c`: callbacks
  and checkpoint -/
  | commit (d : Nat) (ok : Bool) (hct : Option Nat) (c : Nat)
  | rollback (auto : Bool) (d : Nat)

/-- One call. -/
def step (s : St) : Op → St
  | .idle d => { s with now := s.now + d }
  | .begin_ w d r =>
    -- SQLite.cpp:520-534
    let s := { s with start := s.now, now := s.now + w }
    -- SQLite.cpp:541-544
    if s.inside then rollback s false r
    -- SQLite.cpp:558-578
    else { s with now := s.now + d, inside := true, begin_ := d, read := 0, write := 0, prep := 0, commit := 0, roll := 0, total := 0 }
  | .read d => { s with now := s.now + d, read := s.read + d }
  | .write d constraint =>
    -- SQLite.cpp:853-855, 901-907
    if s.inside then
      if constraint then { s with now := s.now + d } else { s with now := s.now + d, write := s.write + d }
    else s
  | .prepare w d ok r =>
    let s := { s with now := s.now + w + d, prep := s.prep + d }
    if ok then s else rollback s false r
  | .commit d ok hct c =>
    if s.inside then
      if ok then
        -- SQLite.cpp:1158-1162
        let s := { s with now := s.now + d, commit := s.commit + d }
        let s := { s with total := s.now - s.start, inside := false }
        -- SQLite.cpp:1168-1175
        let s := match hct with
          | some h => if s.commit > 100000 then { s with now := s.now + h, read := s.read + h } else s
          | none => s
        log { s with now := s.now + c }
      else { s with now := s.now + d }
    else s
  | .rollback auto d => rollback s auto d

def run (s : St) (ops : List Op) : St := ops.foldl step s

end Bedrock.TxTimes
