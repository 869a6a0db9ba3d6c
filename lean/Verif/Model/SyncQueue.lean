/-!
# The synchronised queue: `libstuff/SSynchronizedQueue.h`

Producers push under the queue's mutex; a consumer polls the read end of a pipe, empties the pipe
(`postPoll`, without the mutex) and then pops.  The mutex makes `pop` atomic; `push` holds it over
two effects, the insertion and the write to the pipe, between which `postPoll` can run.
-/

namespace Bedrock.SyncQueue

/-- What the consumer thread is doing. -/
inductive Phase where
  /-- in `poll`, or between rounds -/
  | waiting
  /-- in `postPoll`, reading the pipe -/
  | draining
  /-- taking items -/
  | popping
deriving Repr, DecidableEq

/-- The queue, the number of bytes in the pipe, whether a producer is between its two effects, and
the consumer.  `pushed` and `popped` are history. -/
structure Q (T : Type) where
  queue : List T := []
  pipe : Nat := 0
  pushing : Bool := false
  phase : Phase := .waiting
  pushed : List T := []
  popped : List T := []
deriving Repr, DecidableEq

/-- The steps. -/
inductive Step (T : Type) where
  /-- a producer takes the mutex and inserts, SSynchronizedQueue.h:148-154 -/
  | insert (v : T)
  /-- the producer writes its byte and releases the mutex, 156-158; the write end is blocking, so
  this waits while the pipe is full -/
  | announce
  /-- `poll` returns because the pipe is readable; the consumer enters `postPoll`, 88-92 -/
  | wake
  /-- `poll` times out; `postPoll` finds nothing to do -/
  | timeout
  /-- `postPoll` reads a byte, or finds the pipe empty and returns, 93-108 -/
  | read
  /-- `pop`, 133-143: an item, or an exception if there is none, after which the consumer polls -/
  | pop
  /-- the consumer goes back to polling without having emptied the queue -/
  | leave
  /-- `clear`, 111-116 -/
  | clear
deriving Repr, DecidableEq

variable {T : Type}

/-- One step; `cap` is the capacity of the pipe.  `none` if the step is not possible. -/
def step (cap : Nat) (s : Q T) : Step T → Option (Q T)
  | .insert v =>
    if s.pushing then none
    else some { s with queue := s.queue ++ [v], pushing := true, pushed := s.pushed ++ [v] }
  | .announce =>
    if s.pushing ∧ s.pipe < cap then some { s with pushing := false, pipe := s.pipe + 1 } else none
  | .wake => if s.phase = .waiting ∧ 0 < s.pipe then some { s with phase := .draining } else none
  | .timeout => if s.phase = .waiting then some { s with phase := .popping } else none
  | .read =>
    if s.phase = .draining then
      if 0 < s.pipe then some { s with pipe := s.pipe - 1 } else some { s with phase := .popping }
    else none
  | .pop =>
    if s.phase = .popping ∧ s.pushing = false then
      match s.queue with
      | [] => some { s with phase := .waiting }
      | v :: rest => some { s with queue := rest, popped := s.popped ++ [v] }
    else none
  | .leave => if s.phase = .popping then some { s with phase := .waiting } else none
  | .clear => if s.pushing then none else some { s with queue := [] }

/-- An execution. -/
def run (cap : Nat) (s : Q T) : List (Step T) → Option (Q T)
  | [] => some s
  | e :: es => (step cap s e).bind (run cap · es)

end Bedrock.SyncQueue
