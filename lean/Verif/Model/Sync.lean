import Verif.Model.DB

/-!
# Applying commits received from a peer

Models `SQLiteNode::_replicate` with its three handlers, `_recvSynchronize` and
`_queueSynchronize` (sqlitecluster/SQLiteNode.cpp) on top of the database layer.
-/

namespace Bedrock.Sync
open Bedrock Bedrock.DB

/-- What the replication code needs from its environment besides the database.
`decompress` is `BedrockPlugin_Compression::decompress` (`none`: it throws);
`expand` is the text SQLite reports for the statements it executed, which is what
`_writeIdempotent` keeps (SQLite.cpp:877-922, libstuff.cpp:3022-3032). -/
structure REnv where
  db : DB.Env
  decompress : Bytes → Option Bytes
  expand : Bytes → Bytes

/-- Outcomes, chosen by the environment, of the parts of one transaction that are not modelled. -/
structure Outcomes where
  beginOk : Bool := true
  writeOk : Bool := true
  /-- the commit lock is granted if it is free -/
  lockOk : Bool := true
  /-- which journal rows the trimming visits -/
  pick : List Nat := []
  insertOk : Bool := true
  commitOk : Bool := true
  /-- whether `_state == FOLLOWING` at the three places where it is tested -/
  following : Bool := true
deriving Repr

/-- A TRANSACTION message; absent headers are `none`. (SQLiteNode.cpp:367-374) -/
structure TxMsg where
  id : Option Bytes
  newCount : Option Nat
  newHash : Option Bytes
  content : Bytes
deriving Repr, DecidableEq

/-- A database with the trace of calls made on it so far. -/
structure Traced where
  s : Sys
  tr : List (Op × Out) := []

/-- Perform one database call, recording it. -/
def Traced.call (env : DB.Env) (t : Traced) (op : Op) : Traced × Out :=
  let r := step env t.s op
  ({ s := r.1, tr := t.tr ++ [(op, r.2)] }, r.2)

/-- Result of one iteration of the replication thread. -/
inductive RepResult where
  /-- the transaction was committed -/
  | applied
  /-- an exception left the thread function: the process terminates -/
  | died
deriving DecidableEq, Repr

/-- An exception escaping `_replicate` (a `std::thread` function without a handler,
SQLiteNode.cpp:1363) terminates the process. -/
def die (env : DB.Env) (t : Traced) : Traced × RepResult := ((t.call env .crash).1, .died)

/-- One TRANSACTION in `_replicate` (SQLiteNode.cpp:209-227): `_handleBeginTransaction`
(1952-1976), `_handlePrepareTransaction` (1978-2029), `_handleCommitTransaction` (2031-2069). -/
def replicateOne (env : REnv) (t : Traced) (h : Nat) (m : TxMsg) (o : Outcomes) :
    Traced × RepResult :=
  -- _handleBeginTransaction
  if !o.following then die env.db t
  else if !(t.s.handles h).uhash.isEmpty then die env.db t
  else
    let b := t.call env.db (.begin h false false o.beginOk)
    if b.2 ≠ .done then die env.db b.1
    else match env.decompress m.content with
    | none => die env.db b.1
    | some q =>
      let w := b.1.call env.db (.write h (env.expand q) true o.writeOk)
      if w.2 ≠ .done then die env.db w.1
      -- _handlePrepareTransaction
      else match m.id, m.newCount, m.newHash with
      | some _, some n, some hash =>
        let p := w.1.call env.db (.prepare h o.lockOk o.pick o.insertOk)
        if p.2 ≠ .done then die env.db (p.1.call env.db (.rollback h)).1
        -- _handleCommitTransaction
        else if (p.1.s.handles h).uhash.isEmpty then die env.db p.1
        else if n ≠ p.1.s.commitCount + 1 then die env.db p.1
        else if hash ≠ (p.1.s.handles h).uhash then die env.db p.1
        else
          let c := p.1.call env.db (.commit h o.commitOk)
          if c.2 = .committed then ((c.1.call env.db .pop).1, .applied)
          else die env.db c.1
      | _, _, _ => die env.db w.1

/-- One element of a SYNCHRONIZE_RESPONSE / SUBSCRIPTION_APPROVED payload, as parsed by
`SData::deserialize`; `index` is the numeric value of `CommitIndex`. -/
structure Item where
  isCommit : Bool
  index : Option Int
  hash : Option Bytes
  content : Bytes
deriving Repr, DecidableEq

/-- A SYNCHRONIZE_RESPONSE or SUBSCRIPTION_APPROVED message. The payload is the list of messages
that parse; anything after the first piece that does not parse is ignored by the loop. -/
structure SyncMsg where
  shuttingDown : Bool := false
  numCommits : Option Int
  items : List Item
deriving Repr, DecidableEq

/-- The loop of `_recvSynchronize` (SQLiteNode.cpp:1771-1815). Returns `none` as second component
when an exception is thrown, else the number of commits remaining. One `Outcomes` per item. -/
def recvLoop (env : REnv) (h : Nat) : Traced → Int → List (Item × Outcomes) → Traced × Option Int
  | t, rem, [] => (t, some rem)
  | t, rem, (c, o) :: rest =>
    if !c.isCommit then (t, none)                        -- expecting COMMIT
    else match c.index, c.hash with
    | none, _ => (t, none)                               -- missing CommitIndex
    | some i, hash =>
      if i < 0 then (t, none)                            -- invalid CommitIndex
      else match hash with
      | none => (t, none)                                -- missing Hash
      | some hash =>
        if i ≠ t.s.commitCount + 1 then (t, none)        -- commit index mismatch
        else
          let b := t.call env.db (.begin h false true o.beginOk)
          if b.2 ≠ .done then (b.1, none)                -- failed to begin transaction
          else match env.decompress c.content with
          | none => (b.1, none)
          | some q =>
            let w := b.1.call env.db (.write h (env.expand q) true o.writeOk)
            if w.2 ≠ .done then (w.1, none)              -- failed to write transaction
            else
              let p := w.1.call env.db (.prepare h o.lockOk o.pick o.insertOk)
              if p.2 ≠ .done then (p.1, none)            -- failed to prepare transaction
              else if (p.1.s.handles h).uhash ≠ hash then
                ((p.1.call env.db (.rollback h)).1, none)   -- potential hash mismatch
              else
                -- the result of commit is ignored
                recvLoop env h (p.1.call env.db (.commit h o.commitOk)).1 (rem - 1) rest

/-- `_recvSynchronize` (SQLiteNode.cpp:1756-1820): `true` if it returned normally. The outcome
list supplies one outcome per item (`{}` when it runs out). -/
def recvSynchronize (env : REnv) (t : Traced) (h : Nat) (m : SyncMsg) (os : Nat → Outcomes) :
    Traced × Bool :=
  if m.shuttingDown then (t, false)
  else match m.numCommits with
  | none => (t, false)
  | some n =>
    let r := recvLoop env h t n (m.items.zipIdx.map fun e => (e.1, os e.2))
    (r.1, r.2 = some 0)

/-! ## Answering a peer that is behind -/

/-- Insert a row into a list ordered by id, dropping it if the same row is already there
(`UNION` keeps one copy of identical rows). -/
def insRow (r : Row) : List Row → List Row
  | [] => [r]
  | x :: xs => if r.id < x.id then r :: x :: xs else if r = x then x :: xs else x :: insRow r xs

/-- `SQLite::getCompressedCommits` (SQLite.cpp:1354-1369, `_getJournalQuery` 447-460): the rows of
all journals with `from ≤ id` and, unless `to` is 0, `id ≤ to`, ordered by id. -/
def getCompressedCommits (env : DB.Env) (tables : Nat → List Row) (fr to : Nat) : List Row :=
  ((allRows env tables).filter fun r => fr ≤ r.id && (to == 0 || r.id ≤ to)).foldr insRow []

/-- The answer of `_queueSynchronize`. -/
inductive SyncReply where
  /-- an exception: the peer is told to reconnect -/
  | error
  /-- `hashMismatchNumber` / `hashMismatchValue`, nothing else -/
  | mismatch (n : Nat) (hash : Bytes)
  | commits (m : SyncMsg)
deriving Repr, DecidableEq

/-- The COMMIT messages for a list of journal rows (SQLiteNode.cpp:1743-1750): the index is
counted from the peer's commit count, not taken from the row. -/
def commitItems (start : Nat) : List Row → List Item
  | [] => []
  | r :: rs => { isCommit := true, index := some ((start + 1 : Nat) : Int), hash := some r.hash,
                 content := r.query } :: commitItems (start + 1) rs

/-- `_queueSynchronize` (SQLiteNode.cpp:1672-1754). `lastSent` is `some _lastSentTransactionID`
on a LEADING or STANDINGDOWN node, `none` otherwise; `readOk` is false if the journal query fails
or times out. The source compares sizes as unsigned 64-bit numbers; the integers here agree with
that as long as fewer than 2^63 rows are read (a negative difference becomes at least 2^63). -/
def queueSynchronize (env : DB.Env) (s : Sys) (lastSent : Option Nat) (peerCount : Nat)
    (peerHash : Bytes) (sendAll readOk : Bool) : SyncReply :=
  if s.commitCount < peerCount then .error                 -- you have more data than me
  else
    let rest : Unit → SyncReply := fun _ =>
      let target := lastSent.getD s.commitCount
      if peerCount = target then .commits { numCommits := some 0, items := [] }
      else
        let fr := peerCount + 1
        let to := if sendAll then target else min target (fr + 100)
        let rows := getCompressedCommits env s.tables fr to
        if !readOk then .error
        else if (rows.length : Int) ≠ (to : Int) - fr + 1 then .error  -- mismatched commit count
        else .commits { numCommits := some rows.length, items := commitItems peerCount rows }
    if peerCount = 0 then rest ()
    else match getCommit env s.tables peerCount with
      | none => .error                                     -- error getting hash
      | some r => if r.hash ≠ peerHash then .mismatch peerCount r.hash else rest ()

/-- One SYNCHRONIZE / SYNCHRONIZE_RESPONSE exchange between a node (database `t`, handle `h`) and
a source (SQLiteNode.cpp:1194-1299): the node's messages carry its commit count and hash
(`_sendToPeer`, 1411-1432), an error or a mismatch changes nothing at the node. -/
def syncRound (env : REnv) (src : Sys) (lastSent : Option Nat) (h : Nat) (os : Nat → Outcomes)
    (t : Traced) : Traced × Bool :=
  match queueSynchronize env.db src lastSent t.s.commitCount t.s.lastHash false true with
  | .commits m => recvSynchronize env t h m os
  | _ => (t, false)

/-- Several exchanges in a row; stops at the first failure. -/
def syncRounds (env : REnv) (src : Sys) (lastSent : Option Nat) (h : Nat) (os : Nat → Outcomes) :
    Nat → Traced → Traced × Bool
  | 0, t => (t, true)
  | n + 1, t =>
    let r := syncRound env src lastSent h os t
    if r.2 then syncRounds env src lastSent h os n r.1 else r

end Bedrock.Sync
