import Verif.Model.CmdQueue

/-!
# Model of the workers that wait for commands

`/repo/BedrockCommandQueue.cpp:44-93` (`get`), `95-108` (`push`, with `notify_one`), `/repo/BedrockServer.cpp:440` (a worker waits for
100000 microseconds at a time).

Everything is done under `_queueMutex`, which a worker gives up only while it sleeps on `_queueCondition`.  A worker that was notified,
whose time is over, or that wakes for no reason, has to take the mutex again before it looks at the queue: until then it is `awake`.
The steady clock and the time of day are one clock here, and it does not go back.  The wait without a limit of `get(0)`, which no code
uses, is left out.
-/

namespace Bedrock.QueueWait
open Bedrock.CmdQueue

/-- A worker in `get` and the end of its wait, BedrockCommandQueue.cpp:57. -/
structure Worker where
  id : Nat
  until' : Nat
deriving DecidableEq, Repr

structure St where
  q : Q := {}
  now : Nat := 0
  asleep : List Worker := []
  awake : List Worker := []
  /-- the commands handed out, and to whom -/
  got : List (Nat × Cmd) := []
  /-- the workers that left without one (`timeout_error`), the clock then, and the queue then -/
  left : List (Worker × Nat × Q) := []

inductive Ev where
  | tick (d : Nat)
  /-- `push`; `k`: the sleeper that `notify_one` picks, if there is any -/
  | push (c : Cmd) (k : Nat)
  /-- a worker calls `get(wait)` -/
  | enter (id wait : Nat)
  /-- the sleeper at `k` wakes, by itself or at the end of its time -/
  | wake (k : Nat)
  /-- the woken worker at `k` has the mutex -/
  | retry (k : Nat)

/-- The sleeper at `k` becomes awake. -/
def St.rouse (s : St) (k : Nat) : St :=
  match s.asleep[k]? with
  | some w => { s with asleep := s.asleep.eraseIdx k, awake := w :: s.awake }
  | none => s

/-- One step. -/
def step (s : St) : Ev → St
  | .tick d => { s with now := s.now + d }
  -- BedrockCommandQueue.cpp:95-108
  | .push c k => { s with q := s.q.push c }.rouse (k % s.asleep.length)
  -- BedrockCommandQueue.cpp:46-62
  | .enter id wait =>
    match s.q.dequeue s.now with
    | (some c, q) => { s with q := q, got := s.got ++ [(id, c)] }
    | (none, q) => { s with q := q, asleep := ⟨id, s.now + wait⟩ :: s.asleep }
  | .wake k => s.rouse k
  -- BedrockCommandQueue.cpp:66-81
  | .retry k =>
    match s.awake[k]? with
    | none => s
    | some w =>
      match s.q.dequeue s.now with
      | (some c, q) => { s with q := q, awake := s.awake.eraseIdx k, got := s.got ++ [(w.id, c)] }
      | (none, q) =>
        if s.now > w.until' then { s with q := q, awake := s.awake.eraseIdx k, left := s.left ++ [(w, s.now, q)] }
        else { s with q := q, awake := s.awake.eraseIdx k, asleep := w :: s.asleep }

def run (s : St) (evs : List Ev) : St := evs.foldl step s

end Bedrock.QueueWait
