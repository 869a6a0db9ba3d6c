/-!
# The command queue: `BedrockCommandQueue.cpp`

All functions run under `_queueMutex`, so each is one step.  `get` waits by calling `_dequeue` again
whenever it is notified; only the attempts are modelled, with the clock reading each one takes.
A command is its identity; `Bedrock.CmdQueue.Cmd` carries the two times fixed when it is pushed.
-/

namespace Bedrock.CmdQueue

/-- An entry of `_queue`, BedrockCommandQueue.h:72-84: a command with its scheduled time (the key)
and its timeout.  `id` is the command. -/
structure Cmd where
  sched : Nat
  timeout : Nat
  id : Nat
deriving Repr, DecidableEq

/-- `_queue`, a multimap ordered by scheduled time, and `_lookupByTimeout`, a multimap from timeout
to scheduled time, BedrockCommandQueue.h:92-101. -/
structure Q where
  queue : List Cmd := []
  lookup : List (Nat × Nat) := []
deriving Repr, DecidableEq

/-- `multimap::emplace`: the new element goes behind all elements with the same or a smaller key. -/
def insertBy {A : Type} (key : A → Nat) (x : A) : List A → List A
  | [] => [x]
  | y :: ys => if key x < key y then x :: y :: ys else y :: insertBy key x ys

/-- Take the first element that satisfies `p` out of a list. -/
def takeFirst {A : Type} (p : A → Bool) : List A → Option (A × List A)
  | [] => none
  | y :: ys => if p y then some (y, ys) else (takeFirst p ys).map (fun r => (r.1, y :: r.2))

/-- `push`, BedrockCommandQueue.cpp:95-108. -/
def Q.push (q : Q) (c : Cmd) : Q :=
  { queue := insertBy Cmd.sched c q.queue, lookup := insertBy Prod.fst (c.timeout, c.sched) q.lookup }

/-- The second part of `_dequeue`, BedrockCommandQueue.cpp:192-214: the first command if its time has
come, with the first matching entry of the timeout map. -/
def Q.dequeueScheduled (q : Q) (now : Nat) : Option Cmd × Q :=
  match q.queue with
  | [] => (none, q)
  | c :: rest =>
    if c.sched ≤ now then
      (some c, { queue := rest
                 lookup := match takeFirst (fun e => e == (c.timeout, c.sched)) q.lookup with
                   | some r => r.2
                   | none => q.lookup })
    else (none, q)

/-- `_dequeue`, BedrockCommandQueue.cpp:150-217; `none` for the exception.  The loop over
`equal_range(itemScheduled)` looks for the first command with that scheduled time and timeout; the
map is sorted, so that is the first in the whole list. -/
def Q.dequeue (q : Q) (now : Nat) : Option Cmd × Q :=
  match q.lookup with
  | [] => q.dequeueScheduled now
  | (t, s) :: rest =>
    if t ≤ now then
      match takeFirst (fun c => c.sched == s && c.timeout == t) q.queue with
      | some (c, queue) => (some c, { queue := queue, lookup := rest })
      | none => ({ q with lookup := rest } : Q).dequeueScheduled now
    else q.dequeueScheduled now

/-- `abandonFutureCommands`, BedrockCommandQueue.cpp:135-148: the entries of the timeout map stay. -/
def Q.abandon (q : Q) (limit : Nat) : Q := { q with queue := q.queue.filter (fun c => c.sched < limit) }

/-- The operations. -/
inductive Op where
  | push (c : Cmd)
  | get (now : Nat)
  /-- `getAll`, BedrockCommandQueue.cpp:110-124 -/
  | getAll
  /-- `clear`, BedrockCommandQueue.cpp:25-30 -/
  | clear
  | abandon (limit : Nat)
deriving Repr, DecidableEq

/-- One operation: the commands handed out, the commands discarded, and the queue afterwards. -/
def Q.step (q : Q) : Op → List Cmd × List Cmd × Q
  | .push c => ([], [], q.push c)
  | .get now => ((q.dequeue now).1.toList, [], (q.dequeue now).2)
  | .getAll => (q.queue, [], {})
  | .clear => ([], q.queue, {})
  | .abandon limit => ([], q.queue.filter (fun c => !(c.sched < limit)), q.abandon limit)

/-- A history: all commands handed out, all commands discarded, the queue at the end. -/
def Q.run (q : Q) : List Op → List Cmd × List Cmd × Q
  | [] => ([], [], q)
  | op :: ops =>
    let r := q.step op
    let r' := r.2.2.run ops
    (r.1 ++ r'.1, r.2.1 ++ r'.2.1, r'.2.2)

end Bedrock.CmdQueue
