import Verif.Model.Basic
import Verif.Model.CmdQueue

/-!
# The rate limits of the blocking queue: `BedrockBlockingCommandQueue.cpp`

Times are natural numbers of microseconds (`uint64_t` in the code; sums are assumed not to wrap).
Each record carries the clock reading and the configuration values that call loads, so that the
configuration may change at any point of a history.  Every entry is read and written under its own
mutex, so a call of `_recordAndCheck` for one key is one step.
-/

namespace Bedrock.RateLimit

/-- `RecentlyFinishedCommand`, BedrockBlockingCommandQueue.h:56-60. -/
structure Sample where
  finish : Nat
  elapsed : Nat
deriving Repr, DecidableEq

/-- `IdentifierState`, BedrockBlockingCommandQueue.h:68-73. -/
structure KState where
  commands : List Sample := []
  blockedUntil : Nat := 0
deriving Repr, DecidableEq

/-- `StateMap`, BedrockBlockingCommandQueue.h:79-83. -/
abbrev StateMap := List (Bytes × KState)

/-- `_getState`, BedrockBlockingCommandQueue.cpp:148-153. -/
def StateMap.get : StateMap → Bytes → Option KState
  | [], _ => none
  | (k, s) :: m, key => if k = key then some s else StateMap.get m key

/-- Write an entry, creating it if it does not exist. -/
def StateMap.set : StateMap → Bytes → KState → StateMap
  | [], key, s => [(key, s)]
  | (k, s') :: m, key, s => if k = key then (k, s) :: m else (k, s') :: StateMap.set m key s

/-- `timeSinceFinishedUS`, BedrockBlockingCommandQueue.cpp:178. -/
def since (now finish : Nat) : Nat := if now > finish then now - finish else 0

/-- The loop that drops and sums, BedrockBlockingCommandQueue.cpp:176-189. -/
def sweep (window now : Nat) : List Sample → List Sample × Nat
  | [] => ([], 0)
  | s :: rest =>
    let r := sweep window now rest
    if since now s.finish ≥ window then r
    else (s :: r.1, min s.elapsed (window - since now s.finish) + r.2)

/-- One call of `_recordAndCheck` with the values it reads. -/
structure Ev where
  key : Bytes
  now : Nat
  elapsed : Nat
  window : Nat
  threshold : Nat
  duration : Nat
deriving Repr, DecidableEq

/-- The part of `_recordAndCheck` under the entry's mutex, BedrockBlockingCommandQueue.cpp:164-194. -/
def KState.record (s : KState) (e : Ev) : KState :=
  if s.blockedUntil > e.now then s
  else
    let r := sweep e.window e.now (s.commands ++ [⟨e.now, e.elapsed⟩])
    if r.2 > e.threshold then ⟨r.1, e.now + e.duration⟩ else ⟨r.1, s.blockedUntil⟩

/-- `_recordAndCheck`, BedrockBlockingCommandQueue.cpp:155-209. -/
def StateMap.record (m : StateMap) (e : Ev) : StateMap :=
  if e.key.isEmpty || e.threshold == 0 then m
  else m.set e.key (((m.get e.key).getD {}).record e)

/-- `_isBlocked`, BedrockBlockingCommandQueue.cpp:211-222. -/
def StateMap.isBlocked (m : StateMap) (key : Bytes) (now : Nat) : Bool :=
  if key.isEmpty then false
  else match m.get key with
    | none => false
    | some s => s.blockedUntil > now

/-- The two maps, BedrockBlockingCommandQueue.h:104-105. -/
structure Limits where
  identifiers : StateMap := []
  commands : StateMap := []
deriving Repr, DecidableEq

/-- One call of `recordExecutionTime` with the values it reads. -/
structure Rec where
  identifier : Bytes
  command : Bytes
  now : Nat
  elapsed : Nat
  window : Nat := 180000000
  identifierThreshold : Nat := 20000000
  commandThreshold : Nat := 40000000
  duration : Nat := 60000000
deriving Repr, DecidableEq

def Rec.ofIdentifier (r : Rec) : Ev :=
  ⟨r.identifier, r.now, r.elapsed, r.window, r.identifierThreshold, r.duration⟩

def Rec.ofCommand (r : Rec) : Ev :=
  ⟨r.command, r.now, r.elapsed, r.window, r.commandThreshold, r.duration⟩

/-- `recordExecutionTime`, BedrockBlockingCommandQueue.cpp:121-126. -/
def Limits.record (l : Limits) (r : Rec) : Limits :=
  ⟨l.identifiers.record r.ofIdentifier, l.commands.record r.ofCommand⟩

/-- `isBlocked`, BedrockBlockingCommandQueue.cpp:128-134. -/
def Limits.isBlocked (l : Limits) (identifier command : Bytes) (now : Nat) : Bool :=
  l.identifiers.isBlocked identifier now || l.commands.isBlocked command now

/-- The blocking queue: the base queue and the limits. -/
structure BQ where
  queue : CmdQueue.Q := {}
  limits : Limits := {}
deriving Repr, DecidableEq

/-- What a command is limited by: its `blockingQueueRateLimitIdentifier` and its method line. -/
structure Labels where
  identifier : Nat → Bytes
  command : Nat → Bytes

/-- `push`, BedrockBlockingCommandQueue.cpp:24-32: `none` for the 503 exception. -/
def BQ.push (q : BQ) (lb : Labels) (c : CmdQueue.Cmd) (now : Nat) : Option BQ :=
  if q.limits.isBlocked (lb.identifier c.id) (lb.command c.id) now then none
  else some { q with queue := q.queue.push c }

/-- `_dequeue`, BedrockBlockingCommandQueue.cpp:34-45: the command handed out and whether it was
marked complete with 503. -/
def BQ.dequeue (q : BQ) (lb : Labels) (now : Nat) : Option (CmdQueue.Cmd × Bool) × BQ :=
  match q.queue.dequeue now with
  | (none, queue) => (none, { q with queue := queue })
  | (some c, queue) =>
    (some (c, q.limits.isBlocked (lb.identifier c.id) (lb.command c.id) now), { q with queue := queue })

/-- `clearRateLimits`, BedrockBlockingCommandQueue.cpp:53-67. -/
def BQ.clearRateLimits (q : BQ) : BQ × Nat :=
  ({ q with limits := {} }, q.limits.identifiers.length + q.limits.commands.length)

end Bedrock.RateLimit
