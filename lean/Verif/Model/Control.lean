import Verif.Model.Crash
import Verif.Model.Ports
import Verif.Model.Attr
import Verif.Model.Https

/-!
# Status and control commands: `BedrockServer.cpp`

Which requests are treated as control commands, who may send them, and what they do.

Not modelled: the content of the answers of `Status` and `ConflictReport`, the locks taken, the thread
behind `BlockWrites` except that it needs a database, the checks `SQLiteNode::setPriority` makes of the
other peers (an oracle here).
-/

namespace Bedrock.Control
open Bedrock.Text Bedrock.Http

/-- `_isStatusCommand`, BedrockServer.cpp:1441-1450, with the names of BedrockServer.h:341-344. -/
def statusNames : List Bytes :=
  [str "GET /status/isFollower HTTP/1.1", str "GET /status/handlingCommands HTTP/1.1", str "Ping",
   str "Status"]

/-- `_isControlCommand`, BedrockServer.cpp:1632-1656. -/
def controlNames : List Bytes :=
  [str "BeginBackup", str "SuppressCommandPort", str "ClearCommandPort", str "ClearCrashCommands",
   str "ConflictReport", str "Detach", str "Attach", str "SetConflictParams",
   str "SetConflictPageLocks", str "EnableSQLTracing", str "BlockWrites", str "UnblockWrites",
   str "SetMaxSocketThreads", str "SetBlockingQueueTimeRateLimit", str "ClearBlockingQueue",
   str "SetPriority", str "GetCommitHash", str "CRASH_COMMAND"]

/-- `_isNonSecureControlCommand`, BedrockServer.cpp:1658-1667. -/
def openNames : List Bytes :=
  [str "SuppressCommandPort", str "ClearCommandPort", str "GetCommitHash", str "CRASH_COMMAND"]

def isOne (names : List Bytes) (m : Bytes) : Bool := names.any (fun n => sIEquals m n)

def sSource : Bytes := str "_source"
def localhost : Bytes := str "127.0.0.1"

/-- `buildCommandFromRequest` as far as the headers are concerned, BedrockServer.cpp:2206-2222: `ip` is
the address of the other end, `priv` whether the connection came in on the private command port. -/
def build (r : Msg) (ip : Bytes) (priv : Bool) : Msg :=
  let t := if !priv && ip != localhost then r.table.set sSource ip else r.table
  { r with table := (t.erase (str "httpsRequests")).erase (str "serializedData") }

/-- What the control commands change. -/
structure Ctl where
  ports : Ports.Srv := {}
  crash : Crash.Bl := []
  backup : Bool := false
  maxRetries : Int := 3
  pageLocks : Bool := false
  trace : Bool := false
  maxThreads : Nat := 5000
  /-- window, threshold per identifier, threshold per command, block duration, in microseconds -/
  limits : Nat × Nat × Nat × Nat := (0, 0, 0, 0)
  /-- how often the blocks of the rate limiter were cleared -/
  limitsCleared : Nat := 0
  /-- how often the blocking queue was emptied -/
  flushed : Nat := 0
  writesBlocked : Bool := false
  /-- the priorities handed to the node -/
  priorities : List Int := []

/-- What the commands find: plugins that prevent attaching, whether there is a sync node, whether there
is a database and the hash of a commit. -/
structure Env where
  /-- what `SQLiteNode::setPriority` objects to because of other peers, SQLiteNode.cpp:2497-2533 -/
  refuses : Int → Option Bytes := fun _ => none
  preventAttach : List Bytes := []
  hasNode : Bool := true
  hasDb : Bool := true
  hash : Nat → Option Bytes := fun _ => none

/-- `request.calc64`, SData.cpp:86-90. -/
def calc64 (r : Msg) (n : Bytes) : Int := strtoll (r.table.get n)

/-- `request.calcU64`, SData.cpp:93-97: `strtoull`, which wraps a negative number. -/
def calcU64 (r : Msg) (n : Bytes) : Nat := (Https.toUInt64 (r.table.get n)).toNat

def isSet (r : Msg) (n : Bytes) : Bool := (r.table.find n).isSome

/-- The reason in a request to block or unblock the port, BedrockServer.cpp:1685-1688. -/
def reasonOf (r : Msg) : Bytes :=
  if r.table.get (str "reason") ≠ [] then r.table.get (str "reason") else str "MANUAL"

/-- One of the four limits: set if it is there and not negative, BedrockServer.cpp:1775-1805. -/
def newLimit (r : Msg) (n : Bytes) (old : Nat) : Nat :=
  if isSet r n ∧ 0 ≤ calc64 r n then ((calc64 r n).toNat * 1000) % 2 ^ 64 else old

/-- `SQLiteNode::setPriority(int)`, SQLiteNode.cpp:2489-2533: the argument is narrowed to 32 bits and
then checked (again).  `.error` is the exception, the method line of the answer. -/
def nodePriority (env : Env) (v : Int) : Except Bytes Int :=
  let p := toInt32 v
  if p < 0 ∨ p = 1 then .error (str "400 Invalid priority")
  else match env.refuses p with
    | some e => .error e
    | none => .ok p

/-- `_control`, BedrockServer.cpp:1676-1912: the new state and the method line of the answer; `none` if
there never is one. -/
def control (env : Env) (c : Ctl) (r : Msg) : Ctl × Option Bytes :=
  let is := fun n => sIEquals r.methodLine (str n)
  let str := fun n => some (Text.str n)
  let ok := str "200 OK"
  if is "BeginBackup" then ({ c with backup := true, ports := c.ports.beginShutdown true }, ok)
  else if is "SuppressCommandPort" then ({ c with ports := c.ports.block (reasonOf r) }, ok)
  else if is "ClearCommandPort" then ({ c with ports := c.ports.unblock (reasonOf r) }, ok)
  else if is "ClearCrashCommands" then ({ c with crash := [] }, ok)
  else if is "ConflictReport" then (c, ok)
  else if is "Detach" then
    if c.ports.detach = true ∧ c.ports.shut = .running then (c, str "400 Already detached")
    else ({ c with ports := c.ports.beginShutdown true }, str "203 DETACHING")
  else if is "Attach" then
    if env.preventAttach ≠ [] then
      (c, some (Text.str "401 Attaching prevented by " ++ joinComma env.preventAttach))
    else if c.ports.shut ≠ .running then (c, str "401 Attaching prevented by server not ready")
    else ({ c with ports := c.ports.attach }, str "204 ATTACHING")
  else if is "EnableSQLTracing" then
    (if isSet r (Text.str "enable") then { c with trace := Attr.test (r.table.get (Text.str "enable")) } else c, ok)
  else if is "CRASH_COMMAND" then ({ c with crash := c.crash.onReport r.content }, ok)
  else if is "ClearBlockingQueue" then
    ({ c with flushed := c.flushed + 1, limitsCleared := c.limitsCleared + 1 }, ok)
  else if is "SetConflictParams" then
    (if 0 ≤ calc64 r (Text.str "MaxConflictRetries") then
      { c with maxRetries := toInt32 (calc64 r (Text.str "MaxConflictRetries")) } else c, ok)
  else if is "SetConflictPageLocks" then ({ c with pageLocks := Attr.test (r.table.get (Text.str "enable")) }, ok)
  else if is "SetBlockingQueueTimeRateLimit" then
    ({ c with
        limits := (newLimit r (Text.str "windowMS") c.limits.1,
          newLimit r (Text.str "identifierThresholdMS") c.limits.2.1,
          newLimit r (Text.str "commandThresholdMS") c.limits.2.2.1,
          newLimit r (Text.str "blockDurationMS") c.limits.2.2.2)
        limitsCleared := if Attr.test (r.table.get (Text.str "ClearBlocks")) then c.limitsCleared + 1
          else c.limitsCleared }, ok)
  else if is "BlockWrites" then
    if c.writesBlocked then (c, str "400 Already Blocked")
    else if env.hasDb = false then (c, none)
    else ({ c with writesBlocked := true }, str "200 Blocked")
  else if is "UnblockWrites" then
    if c.writesBlocked then ({ c with writesBlocked := false }, str "200 Unblocked")
    else (c, str "200 Not Blocked")
  else if is "SetMaxSocketThreads" then
    if calcU64 r (Text.str "socketThreadsCount") ≠ 0 then
      ({ c with maxThreads := calcU64 r (Text.str "socketThreadsCount") }, ok)
    else (c, str "401 Don't Use Zero")
  else if is "SetPriority" then
    if isSet r (Text.str "priority") = false then (c, str "400 Missing priority")
    else if calc64 r (Text.str "priority") < 0 ∨ calc64 r (Text.str "priority") = 1 then
      (c, str "400 Invalid priority")
    else if env.hasNode = false then (c, str "500 No sync node")
    else match nodePriority env (calc64 r (Text.str "priority")) with
      | .error e => (c, some e)
      | .ok p => ({ c with priorities := c.priorities ++ [p] }, ok)
  else if is "GetCommitHash" then
    if isSet r (Text.str "commitCount") = false then (c, str "400 Missing commitCount")
    else if calcU64 r (Text.str "commitCount") = 0 then (c, str "400 Invalid commitCount")
    else if env.hasDb = false then (c, str "500 No database")
    else if (env.hash (calcU64 r (Text.str "commitCount"))).isSome then (c, ok)
    else (c, str "404 Commit not found")
  else (c, ok)
where
  /-- `SComposeList` with its default separator, libstuff.h:571-583. -/
  joinComma : List Bytes → Bytes
    | [] => []
    | [x] => x
    | x :: xs => x ++ str ", " ++ joinComma xs

/-- What becomes of a request. -/
inductive Fate where
  /-- answered as a status request -/
  | status
  /-- taken as a control command; `none`: it never gets an answer -/
  | control (answer : Option Bytes)
  /-- not for this part of the server: goes on to be run as a command -/
  | command
deriving DecidableEq

/-- `_handleIfStatusOrControlCommand`, BedrockServer.cpp:916-936. -/
def handle (env : Env) (c : Ctl) (r : Msg) : Ctl × Fate :=
  if isOne statusNames r.methodLine then (c, .status)
  else if isOne controlNames r.methodLine then
    if r.table.get sSource = [] ∨ isOne openNames r.methodLine = true then
      let x := control env c r
      (x.1, .control x.2)
    else (c, .control (some (str "401 Unauthorized")))
  else (c, .command)

/-- A request on a connection, BedrockServer.cpp:2344-2356. -/
def request (env : Env) (c : Ctl) (r : Msg) (ip : Bytes) (priv : Bool) : Ctl × Fate :=
  handle env c (build r ip priv)

end Bedrock.Control
