import Verif.Model.Status
import Verif.Model.Address

/-!
# Model of what a node tells of its peers

`/repo/sqlitecluster/SQLitePeer.cpp:14-33` (the constructor), `218-239` (`responseName`), `255-283` (`getData`),
`/repo/sqlitecluster/SQLiteNode.cpp:383-397` (`getPeerInfo`), `/repo/BedrockServer.cpp:1450-1458` (`getPeerInfo`;
the text made of it is in `Model/Status.lean`),
`/repo/sqlitecluster/SQLiteClusterMessenger.cpp:85-90` (the names taken by `runOnAll`).

The members of a peer are atomic one by one; here they are one snapshot.
-/

namespace Bedrock.PeerInfo
open Bedrock Bedrock.Text Bedrock.Http Bedrock.Node

/-- `SQLitePeer::Response`, SQLitePeer.h. -/
inductive Response where
  | none | approve | deny
deriving DecidableEq, Repr

/-- `responseName`, SQLitePeer.cpp:218-239. -/
def responseName : Response → Bytes
  | .none => b!"NONE"
  | .approve => b!"APPROVE"
  | .deny => b!"DENY"

/-- The members of `SQLitePeer` that are told, SQLitePeer.h:78-98. -/
structure Info where
  name : Bytes
  host : Bytes
  id : Nat
  params : Table
  state : NState := .searching
  connected : Bool := false
  latency : Nat := 0
  nextReconnect : Nat := 0
  loggedIn : Bool := false
  priority : Int := 0
  version : Bytes := []
  hash : Bytes := []
  commitCount : Nat := 0
  standupResponse : Response := .none
  subscribed : Bool := false
  commandAddress : Bytes := []
deriving DecidableEq, Repr

/-- The constructor, SQLitePeer.cpp:14-33, of what `_initPeers` read from the peer list. -/
def made (p : Address.Peer) : Info := { name := p.name, host := p.host, id := p.id, params := p.params }

/-- `STable::emplace`: nothing happens if the name, in any letter case, is there. -/
def emplace (t : Table) (e : Bytes × Bytes) : Table := if (t.find e.1).isSome then t else t.set e.1 e.2

/-- `"true"` or `"false"`, SQLitePeer.cpp:266 and 272. -/
def boolText (b : Bool) : Bytes := if b then b!"true" else b!"false"

/-- The state, SQLitePeer.cpp:262. -/
def stateText (s : NState) (connected : Bool) : Bytes :=
  Status.stateName s ++ (if connected then [] else b!" (DISCONNECTED)")

/-- The entries of SQLitePeer.cpp:259-273. -/
def standard (p : Info) : List (Bytes × Bytes) :=
  [(b!"name", p.name), (b!"host", p.host), (b!"state", stateText p.state p.connected),
   (b!"latency", natDec p.latency), (b!"nextReconnect", natDec p.nextReconnect), (b!"id", natDec p.id),
   (b!"loggedIn", boolText p.loggedIn), (b!"priority", intDec p.priority), (b!"version", p.version),
   (b!"hash", p.hash), (b!"commitCount", natDec p.commitCount),
   (b!"standupResponse", responseName p.standupResponse), (b!"subscribed", boolText p.subscribed)]

/-- `getData`, SQLitePeer.cpp:255-283.  A map made of a list inserts its entries one by one, each only if its name is not there. -/
def getData (p : Info) : Table :=
  let result := (standard p).foldl emplace []
  let result := p.params.foldl emplace result
  result.set (b!"commandAddress") p.commandAddress

/-- `BedrockServer::getPeerInfo`, BedrockServer.cpp:1450-1458, with `SQLiteNode::getPeerInfo`, SQLiteNode.cpp:383-397:
the peers of the node, if there is a node. -/
def getPeerInfo (node : Option (List Info)) : List Table :=
  match node with
  | some peers => peers.map getData
  | none => []

/-- The names `runOnAll` takes, SQLiteClusterMessenger.cpp:85-90.  `none`: `at` throws. -/
def runOnAllNames (peers : List Info) : List (Option Bytes) := (peers.map getData).map (Table.find (b!"name"))

end Bedrock.PeerInfo
