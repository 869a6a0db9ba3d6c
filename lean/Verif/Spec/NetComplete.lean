import Verif.Model.Net

/-!
# What is meant by a cluster that stays together
-/

namespace Bedrock.Net
open Bedrock Bedrock.Node Bedrock.Node.Node

/-- Every node is connected with every other and knows its commits and its priority; nobody leads or tries to, and no message is
under way. -/
structure Met (net : Net) : Prop where
  login : ∀ i, i < net.size → ∀ j, j < net.size → i ≠ j → (net.view i j).loggedIn = true ∧ (net.view i j).forked = false
  known : ∀ i, i < net.size → ∀ j, j < net.size → i ≠ j →
    (net.view i j).commitCount = (net.node j).commits ∧ (net.view i j).priority = (net.node j).priority
  quiet : ∀ i, i < net.size → ∀ j, j < net.size → i ≠ j → net.chan i j = []
  idle : ∀ i, i < net.size → (net.node i).state ∉ [NState.standingUp, .leading, .standingDown]

/-- While these events happen, all nodes stay logged in with each other and no histories are found to differ, no priority is raised, no
database loses a commit, and a node that does not lead gets only commits another node has. -/
def Steady (net : Net) : List Ev → Prop
  | [] => True
  | ev :: evs =>
    ((∀ i, i < net.size → ∀ j, j < net.size → i ≠ j →
      ((step net ev).view i j).loggedIn = true ∧ ((step net ev).view i j).forked = false) ∧
    (∀ i, i < net.size → ((step net ev).node i).priority ≤ (net.node i).priority) ∧
    (∀ i, i < net.size → (net.node i).commits ≤ ((step net ev).node i).commits ∧
      ((net.node i).state ∈ [NState.leading, .standingDown] ∨
        ∃ j, j < net.size ∧ ((step net ev).node i).commits ≤ (net.node j).commits))) ∧
    Steady (step net ev) evs

/-- `Steady` without the condition on priorities. -/
def SteadyButPriority (net : Net) : List Ev → Prop
  | [] => True
  | ev :: evs =>
    ((∀ i, i < net.size → ∀ j, j < net.size → i ≠ j →
      ((step net ev).view i j).loggedIn = true ∧ ((step net ev).view i j).forked = false) ∧
    (∀ i, i < net.size → (net.node i).commits ≤ ((step net ev).node i).commits ∧
      ((net.node i).state ∈ [NState.leading, .standingDown] ∨
        ∃ j, j < net.size ∧ ((step net ev).node i).commits ≤ (net.node j).commits))) ∧
    SteadyButPriority (step net ev) evs

instance : (net : Net) → (evs : List Ev) → Decidable (Steady net evs)
  | _, [] => .isTrue trivial
  | net, ev :: evs => by
    have := instDecidableSteady (step net ev) evs
    unfold Steady
    infer_instance

instance : (net : Net) → (evs : List Ev) → Decidable (SteadyButPriority net evs)
  | _, [] => .isTrue trivial
  | net, ev :: evs => by
    have := instDecidableSteadyButPriority (step net ev) evs
    unfold SteadyButPriority
    infer_instance

end Bedrock.Net
