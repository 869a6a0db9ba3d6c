import Verif.Model.JobsSchedule
import Verif.Model.Json
import Verif.Model.Search

/-!
# The texts of `repeat` and `retryAfter`

`SIsValidSQLiteDateModifier`, libstuff.cpp:3189-3215; the parsing part of `_constructNextRunDATETIME`,
plugins/Jobs.cpp:1480-1550; `_validateRepeat`, plugins/Jobs.h:53-56.

SQLite's date modifiers are modelled as documented (<https://www.sqlite.org/lang_datefunc.html>): a text that is exactly
one modifier, in any case, has its meaning, and any other text that `SIsValidSQLiteDateModifier` accepts makes `DATETIME`
return NULL.
-/

namespace Bedrock.Jobs
open Bedrock Bedrock.Text

/-- The calendar arithmetic of SQLite: months and years, and rounding. -/
structure Calendar where
  months : Int → Int → Option Int
  years : Int → Int → Option Int
  snap : Bytes → Int → Option Int

/-- A word, with or without an `S`. -/
def isUnit (w s : Bytes) : Bool := s == w || s == w ++ [83]

/-- The units that can have eight digits, and those with three, libstuff.cpp:3195-3200. -/
def longUnits : List (Bytes × (Calendar → Int → Mod)) := [(str " SECOND", fun _ n => .offset n)]

def shortUnits : List (Bytes × (Calendar → Int → Mod)) :=
  [(str " YEAR", fun c n => .calendar (c.years n)), (str " MONTH", fun c n => .calendar (c.months n)),
   (str " DAY", fun _ n => .offset (n * 86400)), (str " HOUR", fun _ n => .offset (n * 3600)),
   (str " MINUTE", fun _ n => .offset (n * 60))]

/-- The value of decimal digits. -/
def digitsVal (d : Bytes) : Int := d.foldl (fun a c => a * 10 + ((c.toNat : Int) - 48)) 0

/-- The first two patterns, libstuff.cpp:3195-3200: a sign, digits, a unit.  The blank that must follow the digits makes
the longest run of digits the only possible one. -/
def signedMod (s : Bytes) : Option (Calendar → Mod) :=
  match s with
  | c :: r =>
    if c = 43 ∨ c = 45 then
      let d := r.takeWhile Json.isDigit
      let u := r.dropWhile Json.isDigit
      let n := if c = 45 then -digitsVal d else digitsVal d
      let units := (if 1 ≤ d.length ∧ d.length ≤ 8 then longUnits else []) ++
        (if 1 ≤ d.length ∧ d.length ≤ 3 then shortUnits else [])
      (units.find? fun x => isUnit x.1 u).map fun x => fun cal => x.2 cal n
    else none
  | [] => none

/-- The other two patterns, libstuff.cpp:3201-3206. -/
def snapTexts : List Bytes :=
  [str "START OF DAY", str "START OF MONTH", str "START OF YEAR", str "WEEKDAY 0", str "WEEKDAY 1", str "WEEKDAY 2",
   str "WEEKDAY 3", str "WEEKDAY 4", str "WEEKDAY 5", str "WEEKDAY 6"]

/-- One modifier; `none`: no pattern matches. -/
def oneMod (s : Bytes) : Option (Calendar → Mod) :=
  match signedMod s with
  | some f => some f
  | none => if s ∈ snapTexts then some fun cal => .snap (cal.snap s) else none

/-- `SIsValidSQLiteDateModifier`, libstuff.cpp:3189-3215: a list of modifiers, possibly empty. -/
def validModifier (s : Bytes) : Bool := (parseList (sToUpper s) 44).1.all fun p => (oneMod p).isSome

/-- `DATETIME(t, text)` in SQLite, for the texts the server lets through. -/
def sqliteMod (cal : Calendar) (s : Bytes) : Mod :=
  match oneMod (sToUpper s) with
  | some f => f cal
  | none => .bad

/-- One part of a repeat, Jobs.cpp:1525-1547. -/
def partMod (cal : Calendar) (p : Bytes) : Mod :=
  if sToUpper p = str "START OF HOUR" then .snap (cal.snap (str "START OF HOUR"))
  else if validModifier p then sqliteMod cal p else .bad

/-- Jobs.cpp:1504-1518. -/
def baseOf (s : Bytes) : Option Base :=
  if s = str "SCHEDULED" then some .scheduled
  else if s = str "STARTED" then some .started
  else if s = str "FINISHED" then some .finished
  else none

/-- The reading of a repeat, Jobs.cpp:1480-1518. -/
def parseRepeat (cal : Calendar) (s : Bytes) : Repeat :=
  if sIEquals s (str "HOURLY") then .hourly
  else if sIEquals s (str "DAILY") then .daily
  else if sIEquals s (str "WEEKLY") then .weekly
  else match (parseList (sToUpper s) 44).1 with
    | base :: p :: ps => match baseOf base with
      | some b => .parts b ((p :: ps).map (partMod cal))
      | none => .malformed
    | _ => .malformed

/-- `_validateRepeat`, Jobs.h:53-56. -/
def validRepeat (cal : Calendar) (now : Int) (s : Bytes) : Bool :=
  match constructNext (parseRepeat cal s) none none now with
  | .invalid => false
  | _ => true

/-- `isRepeatBasedOnScheduledTime`, Jobs.cpp:970, 1260. -/
def saysScheduled (s : Bytes) : Bool := sContains (sToUpper s) (str "SCHEDULED")

end Bedrock.Jobs
