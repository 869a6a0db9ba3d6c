import Verif.Model.Net

/-!
# Undisturbed elections
-/

namespace Bedrock.Net
open Bedrock Bedrock.Node Bedrock.Node.Node

/-- The nodes in `up` are a majority, connected to each other and to no other node, with the same commits, and wait for a leader.
Each knows the state and the priority of the others. -/
structure Ready (up : Nat → Bool) (commits : Nat) (hash : Bytes) (net : Net) : Prop where
  majority : net.size ≤ (List.range net.size).countP up * 2 - 1
  two : 2 ≤ (List.range net.size).countP up
  peers : ∀ i, i < net.size → up i = true → (net.node i).peers.length + 1 = net.size
  idle : ∀ i, i < net.size → up i = true → (net.node i).state ∈ [NState.searching, .waiting] ∧ (net.node i).out = []
  running : ∀ i, i < net.size → up i = true → (net.node i).dead = false ∧ (net.node i).shuttingDown = false ∧
    (net.node i).haveBeenWaiting = true ∧ (net.node i).blocked = false
  database : ∀ i, i < net.size → up i = true → (net.node i).commits = commits ∧ (net.node i).journal commits = hash
  priority : ∀ i, i < net.size → up i = true → (net.node i).priority ≠ 0
  view : ∀ i j, i < net.size → j < net.size → i ≠ j → up i = true → up j = true →
    (net.view i j).loggedIn = true ∧ (net.view i j).forked = false ∧ (net.view i j).permaFollower = false ∧
    (net.view i j).priority = (net.node j).priority ∧ (net.view i j).state = (net.node j).state ∧
    (net.view i j).commitCount = commits ∧ (net.view i j).hash = hash
  gone : ∀ i j, i < net.size → j < net.size → i ≠ j → up i = true → up j = false →
    (net.view i j).loggedIn = false ∧ (net.view i j).permaFollower = false ∧ (net.view i j).state = .searching ∧
    net.side i j = .closed
  connected : ∀ i j, i < net.size → j < net.size → i ≠ j → up i = true → up j = true → net.side i j = .open ∧ net.chan i j = []

/-- Nothing happens to the nodes in `up` but that they work and get their messages: nobody else connects, no connection is lost, no
time runs out, nobody writes or shuts down. Other nodes do what they like among themselves. -/
def Undisturbed (up : Nat → Bool) (commits : Nat) (hash : Bytes) : Ev → Prop
  | .update i timedOut _ => up i = true → timedOut = false
  | .deliver i j _ o => up i = true → up j = true →
    o.recvOk = true ∧ o.queueOk = true ∧ o.commits = commits ∧ o.journal commits = hash
  | .lost i _ => up i = false
  | .connect i j => up i = false ∧ up j = false
  | .restart i _ _ _ _ => up i = false
  | .setPriority i _ => up i = false
  | .setShutdownPriority i => up i = false
  | .beginShutdown i => up i = false
  | .database i _ _ => up i = false

/-- The network after `k` of the events. -/
def trace (net : Net) (ev : Nat → Ev) : Nat → Net
  | 0 => net
  | k + 1 => step (trace net ev k) (ev k)

/-- Every node in `up` goes on working, and every message between them is delivered at last. -/
def Fair (up : Nat → Bool) (size : Nat) (ev : Nat → Ev) : Prop :=
  (∀ i, i < size → up i = true → ∀ k, ∃ k', k ≤ k' ∧ ∃ b, ev k' = .update i false b) ∧
  (∀ i j, i < size → j < size → i ≠ j → up i = true → up j = true → ∀ k, ∃ k', k ≤ k' ∧ ∃ mm o, ev k' = .deliver i j mm o)

end Bedrock.Net
