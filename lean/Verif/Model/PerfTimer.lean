import Verif.Model.Text

/-! # Where the time went: `SPerformanceTimer` (libstuff/SPerformanceTimer.cpp:5-58) and `AutoTimer` (libstuff/AutoTimer.cpp:7-38)

A clock reading is that of `steady_clock`, in nanoseconds, which is never set back.
Simplified: the text of the line and its percentages are not modelled, only the durations they are made from; nor is the order of
the kinds in it. -/

namespace Bedrock.PerfTimer
open Bedrock

/-- libstuff/SPerformanceTimer.h: the times of the kinds, from a `map`. -/
abbrev Totals := List (Bytes × Nat)

structure Timer where
  lastType : Bytes
  lastStart : Nat
  lastLogStart : Nat
  defaults : Totals
  totals : Totals
  deriving DecidableEq, Repr

/-- A line of the log: the duration of the period, and the kinds with their times. -/
structure Line where
  elapsed : Nat
  totals : Totals
  deriving DecidableEq, Repr

/-- Ten seconds. -/
def period : Nat := 10 * 1000 * 1000 * 1000

/-- The constructor, SPerformanceTimer.cpp:5-11. -/
def make (defaults : Totals) (now : Nat) : Timer :=
  { lastType := [], lastStart := 0, lastLogStart := now, defaults, totals := defaults }

/-- `start`, SPerformanceTimer.cpp:13-17. -/
def start (t : Timer) (kind : Bytes) (now : Nat) : Timer := { t with lastType := kind, lastStart := now }

/-- SPerformanceTimer.cpp:26-31: added to the kind, or a new kind. -/
def record (k : Bytes) (d : Nat) : Totals → Totals
  | [] => [(k, d)]
  | (k', v) :: l => if k' = k then (k', v + d) :: l else (k', v) :: record k d l

/-- `stop`, SPerformanceTimer.cpp:19-42: the timer, the line that is logged, if any, and the microseconds returned. -/
def stop (t : Timer) (now : Nat) : Timer × Option Line × Nat :=
  let d := now - t.lastStart
  let totals := record t.lastType d t.totals
  if period < now - t.lastLogStart then
    ({ t with lastLogStart := now, totals := t.defaults }, some { elapsed := now - t.lastLogStart, totals }, d / 1000)
  else ({ t with totals }, none, d / 1000)

/-- What is measured: a kind, and the readings of `start` and `stop`. -/
structure Span where
  kind : Bytes
  from_ : Nat
  to : Nat
  deriving DecidableEq, Repr

/-- One measurement. -/
def measure (t : Timer) (s : Span) : Timer × Option Line × Nat := stop (start t s.kind s.from_) s.to

/-- Measurements in turn: the timer and the lines. -/
def run : Timer → List Span → Timer × List Line
  | t, [] => (t, [])
  | t, s :: l =>
    let r := measure t s
    let rest := run r.1 l
    (rest.1, r.2.1.toList ++ rest.2)

/-- `AutoTimer`, AutoTimer.cpp:7-9. -/
structure Auto where
  intervalStart : Nat
  countedTime : Nat
  deriving DecidableEq, Repr

/-- `AutoTimerTime`'s constructor and destructor, AutoTimer.cpp:11-38: the timer, and the milliseconds counted and passed if they are
logged. -/
def autoSpan (t : Auto) (a b : Nat) : Auto × Option (Nat × Nat) :=
  let counted := t.countedTime + (b - a)
  if t.intervalStart + period < b then
    ({ intervalStart := b, countedTime := 0 }, some (counted / 1000000, (b - t.intervalStart) / 1000000))
  else ({ t with countedTime := counted }, none)

/-- Measurements in turn. -/
def autoRun : Auto → List (Nat × Nat) → Auto × List (Nat × Nat)
  | t, [] => (t, [])
  | t, (a, b) :: l =>
    let r := autoSpan t a b
    let rest := autoRun r.1 l
    (rest.1, r.2.toList ++ rest.2)

end Bedrock.PerfTimer
