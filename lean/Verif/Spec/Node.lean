import Verif.Model.Node

/-!
# What the node's state machine is documented to do
-/

namespace Bedrock.Node.Spec
open Bedrock Bedrock.Node

/-- The documented transitions (SQLiteNode.cpp:421-444 and the table peers check each other
against, 1118-1153). A node jumps from SEARCHING to LEADING only if it has no peers. -/
def edge (hasPeers : Bool) : NState → NState → Bool
  | .unknown, .searching => true
  | .searching, .synchronizing => true
  | .searching, .waiting => true
  | .searching, .leading => !hasPeers
  | .synchronizing, .searching => true
  | .synchronizing, .waiting => true
  | .waiting, .searching => true
  | .waiting, .standingUp => true
  | .waiting, .subscribing => true
  | .standingUp, .searching => true
  | .standingUp, .leading => true
  | .leading, .searching => true
  | .leading, .standingDown => true
  | .standingDown, .searching => true
  | .subscribing, .searching => true
  | .subscribing, .following => true
  | .following, .searching => true
  | _, _ => false

/-- `l` is a walk from `a` to `b` along the edges `e` (`a` itself is not in `l`). -/
def Walk (e : NState → NState → Bool) : NState → List NState → NState → Prop
  | a, [], b => a = b
  | a, x :: l, b => e a x = true ∧ Walk e x l b

instance (e : NState → NState → Bool) : ∀ a l b, Decidable (Walk e a l b)
  | a, [], b => inferInstanceAs (Decidable (a = b))
  | _, x :: l, b =>
    have : Decidable (Walk e x l b) := instDecidableWalk e x l b
    inferInstanceAs (Decidable (_ ∧ _))

/-- May workers commit, going by the states the node has been in? Not between leaving leadership
and leaving the SEARCHING state that follows. -/
def writesAllowed (hist : List NState) : Bool :=
  match hist.reverse with
  | .searching :: .leading :: _ => false
  | .searching :: .standingDown :: _ => false
  | _ => true

/-- Number of peers that count for quorum. -/
def fullCount (n : Node) : Nat := n.peers.countP (fun p => !p.permaFollower)

/-- Number of those that are logged in. -/
def loggedInCount (n : Node) : Nat := n.peers.countP (fun p => !p.permaFollower && p.loggedIn)

/-- Number of those that are forked from us. -/
def forkedCount (n : Node) : Nat := n.peers.countP (fun p => !p.permaFollower && p.forked)

/-- All full nodes of the cluster, ourselves included unless we are a permafollower. -/
def clusterSize (n : Node) : Nat := fullCount n + (if n.configured ≠ 0 then 1 else 0)

end Bedrock.Node.Spec
