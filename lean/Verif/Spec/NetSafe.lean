import Verif.Model.Net

/-!
# What is meant by connections that last
-/

namespace Bedrock.Net
open Bedrock Bedrock.Node Bedrock.Node.Node

/-- While these events happen, no node stops regarding another as logged in, and none finds that one it regards as logged in has
another history. -/
def Lasting (net : Net) : List Ev → Prop
  | [] => True
  | ev :: evs =>
    (∀ i, i < net.size → ∀ j, j < net.size → i ≠ j → (net.view i j).loggedIn = true →
      ((step net ev).view i j).loggedIn = true ∧ ((step net ev).view i j).forked = (net.view i j).forked) ∧
    Lasting (step net ev) evs

/-- No node is made a permafollower. -/
def AllFull (evs : List Ev) : Prop := ∀ ev ∈ evs, match ev with
  | .setPriority _ p => p ≠ 0
  | .restart _ c _ _ _ => c ≠ 0
  | _ => True

instance : (net : Net) → (evs : List Ev) → Decidable (Lasting net evs)
  | _, [] => .isTrue trivial
  | net, ev :: evs => by
    have := instDecidableLasting (step net ev) evs
    unfold Lasting
    infer_instance

instance (evs : List Ev) : Decidable (AllFull evs) := by
  unfold AllFull
  have : ∀ ev : Ev, Decidable (match ev with
    | .setPriority _ p => p ≠ 0
    | .restart _ c _ _ _ => c ≠ 0
    | _ => True) := fun ev => by cases ev <;> dsimp only <;> infer_instance
  infer_instance

end Bedrock.Net
