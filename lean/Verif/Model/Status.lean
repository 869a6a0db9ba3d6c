import Verif.Model.Json
import Verif.Model.Node
import Verif.Model.Search
import Verif.Model.Literal

/-!
# Model of what a monitor or a load balancer is told

`/repo/BedrockServer.cpp:1439-1448` (`_isStatusCommand`), `1497-1630` (`_status`), `2463-2473` (`getState`),
`/repo/sqlitecluster/SQLiteNode.cpp:2313-2360` (`stateName`, `stateFromName`),
`/repo/BedrockBlockingCommandQueue.cpp:69-101` (`getState`).

`getState` is called several times while one answer is made, and the node may change its state in
between: `read k` is what the `k`-th call gives.  Everything else that `_status` collects is given as one
`View`; what it takes from the plugins, the peers, the database and the queues is an input.
-/

namespace Bedrock.Status
open Bedrock Bedrock.Text Bedrock.Http Bedrock.Json Bedrock.Node

/-- `SQLiteNode::stateName`, SQLiteNode.cpp:2313-2334. -/
def stateName : NState → Bytes
  | .unknown => b!"UNKNOWN"
  | .searching => b!"SEARCHING"
  | .synchronizing => b!"SYNCHRONIZING"
  | .waiting => b!"WAITING"
  | .standingUp => b!"STANDINGUP"
  | .leading => b!"LEADING"
  | .standingDown => b!"STANDINGDOWN"
  | .subscribing => b!"SUBSCRIBING"
  | .following => b!"FOLLOWING"

/-- `SQLiteNode::stateFromName`, SQLiteNode.cpp:2336-2356. -/
def stateFromName (name : Bytes) : NState :=
  let n := sToUpper name
  if n = b!"SEARCHING" then .searching
  else if n = b!"SYNCHRONIZING" then .synchronizing
  else if n = b!"WAITING" then .waiting
  else if n = b!"STANDINGUP" then .standingUp
  else if n = b!"LEADING" then .leading
  else if n = b!"STANDINGDOWN" then .standingDown
  else if n = b!"SUBSCRIBING" then .subscribing
  else if n = b!"FOLLOWING" then .following
  else .unknown

/-- `BedrockServer::getState`, BedrockServer.cpp:2463-2473; `node`: the state of the node, if there is one. -/
def serverState (node : Option NState) : NState :=
  match node with
  | some s => s
  | none => .searching

/-- The answer to `GET /status/isFollower`, BedrockServer.cpp:1503-1512. -/
def isFollower (read : Nat → NState) : Bytes :=
  if read 0 = .following then b!"HTTP/1.1 200 Following"
  else b!"HTTP/1.1 500 Not Following. State=" ++ stateName (read 1)

/-- The three comparisons of BedrockServer.cpp:1529, each with its own `getState`; how many were made. -/
def serving (read : Nat → NState) : Bool × Nat :=
  if read 0 = .following then (true, 1)
  else if read 1 = .leading then (true, 2)
  else if read 2 = .standingDown then (true, 3)
  else (false, 3)

/-- The answer to `GET /status/handlingCommands`, BedrockServer.cpp:1513-1536. -/
def handlingCommands (backup detach : Bool) (version leaderVersion : Bytes) (read : Nat → NState) : Bytes :=
  if backup then b!"HTTP/1.1 503 Backup In Progress"
  else if detach then b!"HTTP/1.1 503 Detached"
  else if leaderVersion ≠ [] ∧ version ≠ leaderVersion then b!"HTTP/1.1 500 Mismatched version. Version=" ++ version
  else
    let (ok, n) := serving read
    (if ok then b!"HTTP/1.1 200" else b!"HTTP/1.1 500") ++ b!" " ++ stateName (read n)

/-- What the answer to `Status` is made of, BedrockServer.cpp:1541-1626. -/
structure View where
  /-- the two calls of `getState` -/
  leaderState : NState
  state : NState
  /-- `getInfo` of each plugin, with its name -/
  plugins : List Table
  version : Bytes
  host : Bytes
  commandCount : Nat
  detached : Bool
  /-- `_crashCommands` -/
  crash : List (Bytes × List Table)
  /-- BedrockBlockingCommandQueue.cpp:92-99: the six numbers and the two lists -/
  windowMs : Nat := 0
  identifierMs : Nat := 0
  commandMs : Nat := 0
  durationMs : Nat := 0
  trackedIdentifiers : Nat := 0
  blockedIdentifiers : List Bytes := []
  trackedCommands : Nat := 0
  blockedCommands : List Bytes := []
  reasons : List Bytes := []
  peers : List Table := []
  queued : List Bytes := []
  /-- `CommitCount`, `priority` and the frames to checkpoint, when there is a node -/
  node : Option (Nat × Int × Nat) := none
  freelist : Option Nat := none
  pages : Option Nat := none

/-- `true` or `false`. -/
def flag (b : Bool) : Bytes := if b then b!"true" else b!"false"

/-- One entry of `crashCommandList`, BedrockServer.cpp:1564-1573. -/
def crashEntry (isFloat : Bytes → Bool) (e : Bytes × List Table) : Option Bytes := do
  let ps ← (e.2.filter (fun t => !t.isEmpty)).mapM (composeObject isFloat false)
  let a ← composeArray isFloat ps
  composeObject isFloat false [(e.1, a)]

/-- An array of objects. -/
def objects (isFloat : Bytes → Bool) (ts : List Table) : Option Bytes := do
  let xs ← ts.mapM (composeObject isFloat false)
  composeArray isFloat xs

/-- The entries whose values are text or numbers, BedrockServer.cpp:1549-1555, 1575, 1579-1581, 1602-1625. -/
def plainFields (v : View) : List (Bytes × Bytes) :=
  [ (b!"isLeader", flag (v.leaderState = .leading)),
    (b!"state", stateName v.state),
    (b!"version", v.version),
    (b!"host", v.host),
    (b!"commandCount", natDec v.commandCount),
    (b!"isDetached", flag v.detached),
    (b!"crashCommands", natDec (v.crash.map (·.2.length)).sum),
    (b!"blockingTimeWindowMS", natDec v.windowMs),
    (b!"blockingIdentifierThresholdMS", natDec v.identifierMs),
    (b!"blockingCommandThresholdMS", natDec v.commandMs),
    (b!"blockingBlockDurationMS", natDec v.durationMs),
    (b!"blockingTrackedIdentifiers", natDec v.trackedIdentifiers),
    (b!"blockingBlockedIdentifiers", composeList v.blockedIdentifiers (b!", ")),
    (b!"blockingTrackedCommands", natDec v.trackedCommands),
    (b!"blockingBlockedCommands", composeList v.blockedCommands (b!", ")) ] ++
  (match v.node with
   | some (c, p, f) =>
     [ (b!"syncNodeAvailable", b!"true"), (b!"CommitCount", natDec c), (b!"priority", intDec p),
       (b!"outstandingFramesToCheckpoint", natDec f) ]
   | none => [(b!"syncNodeAvailable", b!"false")]) ++
  (match v.freelist with
   | some n => [(b!"freelistCount", natDec n)]
   | none => []) ++
  (match v.pages with
   | some n => [(b!"pageCount", natDec n)]
   | none => [])

/-- The entries whose values are JSON, BedrockServer.cpp:1543-1550, 1557-1577, 1583-1599. -/
def jsonFields (isFloat : Bytes → Bool) (v : View) : Option (List (Bytes × Bytes)) := do
  let plugins ← objects isFloat v.plugins
  let crash ← v.crash.mapM (crashEntry isFloat)
  let crashList ← composeArray isFloat crash
  let reasons ← composeArray isFloat v.reasons
  let peers ← objects isFloat v.peers
  let queued ← composeArray isFloat v.queued
  return [(b!"plugins", plugins), (b!"crashCommandList", crashList), (b!"commandPortBlockReasons", reasons),
    (b!"peerList", peers), (b!"queuedCommandList", queued)]

/-- `content`: the table.  Each name is assigned once, so the order of the assignments does not matter. -/
def content (isFloat : Bytes → Bool) (v : View) : Option Table := do
  let js ← jsonFields isFloat v
  return (plainFields v ++ js).foldl (fun t e => t.set e.1 e.2) []

/-- The content of the answer to `Status`, BedrockServer.cpp:1628-1629. `none`: an assertion of the JSON
parser ends the server. -/
def status (isFloat : Bytes → Bool) (v : View) : Option Bytes :=
  (content isFloat v).bind (composeObject isFloat false)

/-- The four requests. -/
inductive Which where
  | follower | handling | ping | status
  deriving DecidableEq, Repr

/-- `_isStatusCommand` and the choice in `_status`, BedrockServer.cpp:1439-1448, 1503-1541. -/
def which (methodLine : Bytes) : Option Which :=
  if sIEquals methodLine (b!"GET /status/isFollower HTTP/1.1") then some .follower
  else if sIEquals methodLine (b!"GET /status/handlingCommands HTTP/1.1") then some .handling
  else if sIEquals methodLine (b!"Ping") then some .ping
  else if sIEquals methodLine (b!"Status") then some .status
  else none

end Bedrock.Status
