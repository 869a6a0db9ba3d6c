import Verif.Model.Node
import Verif.Model.Lookup
import Verif.Model.Literal

/-!
# Model of the choice of the node a command is sent on to

`/repo/sqlitecluster/SQLiteNode.cpp:326-335` (`getLeaderVersion`), `398-416` (`getEligibleFollowerForForwardingAddress`),
`2080-2098` (`leaderCommandAddress`), and their use in `/repo/sqlitecluster/SQLiteClusterMessenger.cpp:274-288`.

The peers are those of `Model/Lookup.lean`; what is known of each is a function of its number.  The address is read after the state
and the version, and may belong to a later moment.
-/

namespace Bedrock.Dest
open Bedrock Bedrock.Text Bedrock.Lookup
open Bedrock.Node (NState)

/-- What a node knows: of itself, of the peer it takes for the leader (`_leadPeer`), and of each peer. -/
structure Known where
  state : NState
  ownVersion : Bytes
  lead : Option Nat
  version : Nat → Bytes
  peerState : Nat → NState

/-- `getLeaderVersion`, SQLiteNode.cpp:326-335. -/
def leaderVersion (k : Known) : Bytes :=
  if k.state = .leading ∨ k.state = .standingDown then k.ownVersion
  else match k.lead with
    | some l => k.version l
    | none => []

/-- What comes of the choice. -/
inductive Choice where
  | address (a : Bytes)
  /-- a null pointer is followed -/
  | crash
deriving DecidableEq, Repr

/-- The names of the followers of the leader's version, SQLiteNode.cpp:405-411. -/
def validPeers (k : Known) (peers : List Peer) : List Bytes :=
  (peers.filter (fun p => !(k.version p.id != leaderVersion k || k.peerState p.id != .following))).map (·.name)

/-- `getEligibleFollowerForForwardingAddress`, SQLiteNode.cpp:398-416; `r`: what `rand` gives; `address`: as it is then. -/
def eligibleFollower (k : Known) (peers : List Peer) (r : Nat) (address : Nat → Bytes) : Choice :=
  if leaderVersion k = [] then .address []
  else
    let valid := validPeers k peers
    match valid[r % valid.length]? with
    | none => .address []
    | some name => match getPeerByName peers name with
      | some p => .address (address p.id)
      | none => .crash

/-- `leaderCommandAddress`, SQLiteNode.cpp:2093-2097. -/
def leaderAddress (k : Known) (address : Nat → Bytes) : Bytes :=
  match k.lead with
  | some l => if k.peerState l = .leading then address l else []
  | none => []

/-- The address of one round and whether the loop is left since this node leads, SQLiteClusterMessenger.cpp:274-288. -/
def roundAddress (onLeader : Bool) (k : Known) (peers : List Peer) (r : Nat) (address : Nat → Bytes) : Choice × Bool :=
  let c := if onLeader then .address (leaderAddress k address) else eligibleFollower k peers r address
  (c, c == .address [] && (onLeader && (k.state == .leading || k.state == .standingUp)))

end Bedrock.Dest
