import Verif.Model.Jobs

/-!
# Model of `_constructNextRunDATETIME`

`/repo/plugins/Jobs.cpp:1480-1597` and `SIsValidSQLiteDateModifier`, `/repo/libstuff/libstuff.cpp:3189-3215`.

Times are seconds since 1970 UTC: every date the function compares or returns went through `DATETIME` or
`STRFTIME('%s')`, which drop the fraction.  A date SQLite cannot compute is `none` (NULL, which the code reads as
the empty text).
-/

namespace Bedrock.Jobs
open Bedrock

/-- One comma separated part of a repeat. -/
inductive Mod where
  /-- `+n` or `-n` SECONDS, MINUTES, HOURS or DAYS, in seconds -/
  | offset (s : Int)
  /-- `+n` or `-n` MONTHS or YEARS: calendar arithmetic of SQLite -/
  | calendar (f : Int → Option Int)
  /-- START OF HOUR/DAY/MONTH/YEAR, WEEKDAY n -/
  | snap (f : Int → Option Int)
  /-- anything else: rejected by `SIsValidSQLiteDateModifier` -/
  | bad

/-- The text starts with a sign, Jobs.cpp:1576-1581. -/
def Mod.signed : Mod → Bool
  | .offset _ | .calendar _ => true
  | _ => false

def Mod.valid : Mod → Bool
  | .bad => false
  | _ => true

/-- `DATETIME(t, part)`. -/
def Mod.apply : Mod → Int → Option Int
  | .offset s, t => some (t + s)
  | .calendar f, t => f t
  | .snap f, t => f t
  | .bad, _ => none

inductive Base where
  | scheduled | started | finished
  deriving DecidableEq

/-- A repeat text. -/
inductive Repeat where
  | hourly | daily | weekly
  /-- too short, or an unknown base -/
  | malformed
  | parts (base : Base) (mods : List Mod)

/-- `applyModifiers`, Jobs.cpp:1523-1550: `none` is a syntax error, `some none` an uncomputable date. -/
def applyMods : List Mod → Option Int → Option (Option Int)
  | [], t => some t
  | m :: ms, t => if m.valid then applyMods ms (t.bind m.apply) else none

/-- The canned repeats in UTC, Jobs.cpp:1487-1495; 1970-01-01 was a Thursday (4). -/
def canned (now : Int) : Repeat → Option Int
  | .hourly => some ((now + 3600) / 3600 * 3600)
  | .daily => some ((now + 86400) / 86400 * 86400)
  | .weekly =>
    let d := now / 86400 + 1
    some ((d + (7 - (d + 4) % 7) % 7) * 86400)
  | _ => none

/-- Skipping missed cycles, Jobs.cpp:1556-1593; `last` is the scheduled time, `n` the next one. -/
def reanchor (mods : List Mod) (last n : Option Int) (now : Int) : Option Int :=
  match last, n with
  | some last, some n =>
    if n ≤ now ∧ 0 < n - last ∧ n - last < 4 * 60 * 60 ∧ mods.all Mod.signed = true then
      some (last + ((now - last).tdiv (n - last) + 1) * (n - last))
    else some n
  -- an empty text is "missed" but its interval is 0
  | _, n => n

/-- `_constructNextRunDATETIME`, Jobs.cpp:1480-1597. -/
def constructNext (rep : Repeat) (lastScheduled lastRun : Option Int) (now : Int) : NR :=
  let toNR : Option Int → NR := fun
    | some t => .time t
    | none => .null
  match rep with
  | .hourly | .daily | .weekly => toNR (canned now rep)
  | .malformed => .invalid
  | .parts _ [] => .invalid
  | .parts base (m :: ms) =>
    match applyMods (m :: ms) (match base with
      | .scheduled => lastScheduled
      | .started => lastRun
      | .finished => some now) with
    | none => .invalid
    | some n => toNR (if base = .scheduled then reanchor (m :: ms) lastScheduled n now else n)

/-- The date functions of the jobs model made from a reading of the repeat and retry texts.  The jobs model counts
milliseconds and writes 0 for the empty text. -/
def envOf (reps : Nat → Repeat) (retries : Nat → Mod) : Env :=
  let secs : Int → Option Int := fun t => if t = 0 then none else some (t / 1000)
  let ms : NR → NR := fun
    | .time t => .time (t * 1000)
    | r => r
  { scheduled := fun r => match reps r with
      | .parts .scheduled _ => true
      | _ => false
    next := fun r sched last now => ms (constructNext (reps r) (secs sched) (secs last) (now / 1000))
    retryAt := fun m now => ((retries m).apply (now / 1000)).map (· * 1000)
    delayed := fun d now => ms (constructNext (.parts .finished [.offset d]) none none (now / 1000)) }

end Bedrock.Jobs
