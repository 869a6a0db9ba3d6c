import Verif.Model.Text

/-! # Plugin timers: `SStopwatch` (libstuff.cpp:3341-3375) and the loop of `postPoll` that asks them (BedrockServer.cpp:1245-1252)

A clock reading is the value `STimeNow` returned, in microseconds; the subtraction wraps around as that of `uint64_t` does.
Simplified: `ringing` reads the clock and the two members at one time; another thread may call `start` before or after it. -/

namespace Bedrock.Stopwatch
open Bedrock

/-- libstuff.h:216-235 -/
structure Timer where
  startTime : UInt64
  alarmDuration : UInt64
  deriving DecidableEq, Repr

/-- `SStopwatch()`, libstuff.cpp:3341-3345. -/
def plain (now : UInt64) : Timer := { startTime := now, alarmDuration := 0 }

/-- `SStopwatch(alarm)`, libstuff.cpp:3347-3351. -/
def withAlarm (alarm : UInt64) : Timer := { startTime := 0, alarmDuration := alarm }

/-- `elapsed`, libstuff.cpp:3353-3356. -/
def elapsed (w : Timer) (now : UInt64) : UInt64 := now - w.startTime

/-- `ringing`, libstuff.cpp:3358-3361. -/
def ringing (w : Timer) (now : UInt64) : Bool := w.alarmDuration != 0 && w.alarmDuration < elapsed w now

/-- `start`, libstuff.cpp:3363-3366. -/
def start (w : Timer) (now : UInt64) : Timer := { w with startTime := now }

/-- `ding`, libstuff.cpp:3368-3375: the clock is read by `ringing` and again by `start`. -/
def ding (w : Timer) (now later : UInt64) : Timer × Bool := if ringing w now then (start w later, true) else (w, false)

inductive Ev where
  /-- the main loop asks, BedrockServer.cpp:1248 -/
  | ding (now later : UInt64)
  /-- the plugin starts it anew -/
  | start (now : UInt64)
  deriving DecidableEq, Repr

/-- One event: the timer, and the readings if `timerFired` was called. -/
def step (w : Timer) : Ev → Timer × List (UInt64 × UInt64)
  | .ding a b => if (ding w a b).2 then ((ding w a b).1, [(a, b)]) else ((ding w a b).1, [])
  | .start t => (start w t, [])

/-- The readings at which the plugin was told. -/
def fired : Timer → List Ev → List (UInt64 × UInt64)
  | _, [] => []
  | w, e :: es => (step w e).2 ++ fired (step w e).1 es

/-- BedrockServer.cpp:1246-1252: the timers of all plugins in turn, each with its two clock readings; the plugins that are told,
with the timer.  A timer is known by its address. -/
def turn : (Nat → Timer) → List ((Nat × Nat) × (UInt64 × UInt64)) → (Nat → Timer) × List (Nat × Nat)
  | ts, [] => (ts, [])
  | ts, ((p, t), (a, b)) :: l =>
    let r := ding (ts t) a b
    let rest := turn (fun i => if i = t then r.1 else ts i) l
    (rest.1, if r.2 then (p, t) :: rest.2 else rest.2)

end Bedrock.Stopwatch
