import Verif.Model.RateLimit

/-!
# What the rate limits should do

Independent of how samples are stored and pruned.
-/

namespace Bedrock.RateLimit.Spec
open Bedrock.RateLimit

/-- How much of the execution `[finish - elapsed, finish)` lies in the window `[now - window, now)`. -/
def overlap (window now : Nat) (s : Sample) : Int :=
  max 0 (min (s.finish : Int) now - max ((s.finish : Int) - s.elapsed) ((now : Int) - window))

/-- Time used within the window by all executions of a list. -/
def usage (window now : Nat) : List Sample → Int
  | [] => 0
  | s :: rest => overlap window now s + usage window now rest

/-- The limits of one dimension after a history. -/
def after (h : List Ev) : StateMap := h.foldl StateMap.record []

/-- The executions of `key` in a history that count: those that finished while the limit was on and
the key was not blocked. -/
def counted (key : Bytes) (h : List Ev) : List Sample :=
  (List.range h.length).filterMap fun i =>
    match h[i]? with
    | some e =>
      if e.key = key ∧ e.threshold ≠ 0 ∧ (after (h.take i)).isBlocked key e.now = false
      then some ⟨e.now, e.elapsed⟩ else none
    | none => none

/-- The record `e`, coming after history `h`, takes `key` over its limit. -/
def Trips (key : Bytes) (h : List Ev) (e : Ev) : Prop :=
  e.key = key ∧ e.threshold ≠ 0 ∧ (after h).isBlocked key e.now = false ∧
  (e.threshold : Int) < usage e.window e.now (counted key h ++ [⟨e.now, e.elapsed⟩])

/-- The clock does not go back and the window does not grow. -/
def Steady (h : List Ev) : Prop := h.Pairwise (fun a b => a.now ≤ b.now ∧ b.window ≤ a.window)

end Bedrock.RateLimit.Spec
