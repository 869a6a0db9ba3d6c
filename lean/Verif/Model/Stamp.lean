import Verif.Model.Lookup
import Verif.Model.Literal

/-!
# Times as texts

`SComposeTime` with the formats of libstuff and the texts made with it (libstuff/STime.cpp:14-23, 87-98;
libstuff.cpp:3666-3684), `STimestampToEpoch` (STime.cpp:25-30), `STimeThisMorning` (65-79) and `SToTimeval` (81-85).
Times are microseconds since 1970.

`gmtime_r`, `strftime`, `strptime` and `mktime` are the C library's: their effect on the formats used here is written out below.
Left out: `STimestampMSToEpoch`, which computes with `double` (32-51), other formats, leap seconds, and a local time zone whose
offset changes in the course of the year.
-/

namespace Bedrock.Stamp
open Bedrock.Text

/-- `struct tm`, as far as used; the month from 1, the year in full. -/
structure Tm where
  year : Int
  month : Int
  day : Int
  hour : Int
  min : Int
  sec : Int
  deriving DecidableEq, Repr

/-- The days of a year, with `SDaysInMonth` for February (STime.cpp:53-63). -/
def yearLen (y : Nat) : Nat := 337 + (Lookup.daysInMonth y 2).toNat

/-- The year of a day number, counting from year `y`. -/
def yearOf : Nat → Nat → Nat → Nat × Nat
  | 0, y, d => (y, d)
  | fuel + 1, y, d => if d < yearLen y then (y, d) else yearOf fuel (y + 1) (d - yearLen y)

/-- The month of a day of a year, counting from month `m`. -/
def monthOf (y : Nat) : Nat → Nat → Nat → Nat × Nat
  | 0, m, d => (m, d)
  | fuel + 1, m, d =>
    if d < (Lookup.daysInMonth y m).toNat then (m, d) else monthOf y fuel (m + 1) (d - (Lookup.daysInMonth y m).toNat)

/-- `gmtime_r`, STime.cpp:20, for a time that is not before 1970. -/
def gmtime (t : Nat) : Tm :=
  let (y, d) := yearOf (t / 86400) 1970 (t / 86400)
  let (m, d) := monthOf y 11 1 d
  { year := y, month := m, day := d + 1, hour := t % 86400 / 3600, min := t % 3600 / 60, sec := t % 60 }

/-- A number in `w` digits: `%m`, `%d`, `%H`, `%M`, `%S` of `strftime` and `%03lu`. -/
def padded : Nat → Nat → Bytes
  | 0, _ => []
  | w + 1, n => padded w (n / 10) ++ [UInt8.ofNat (48 + n % 10)]

/-- `SUNQUOTED_TIMESTAMP`, libstuff.cpp:3666-3669: `SComposeTime("%Y-%m-%d %H:%M:%S", when)`, STime.cpp:14-23.  The text is shorter
than the buffer. -/
def unquoted (micros : Nat) : Bytes :=
  let t := gmtime (micros / 1000000)
  natDec t.year.toNat ++ b!"-" ++ padded 2 t.month.toNat ++ b!"-" ++ padded 2 t.day.toNat ++ b!" " ++
    padded 2 t.hour.toNat ++ b!":" ++ padded 2 t.min.toNat ++ b!":" ++ padded 2 t.sec.toNat

/-- `STIMESTAMP_MS`, STime.cpp:87-94. -/
def millis (micros : Nat) : Bytes := unquoted micros ++ b!"." ++ padded 3 (micros % 1000000 / 1000)

/-! ## Reading -/

/-- What `strptime` reads of a format: white space, a byte, or a number. -/
inductive Field where
  | space
  | lit (b : UInt8)
  /-- at most `digits` digits, in the range `lo` to `hi`, stored with `set` -/
  | num (lo hi digits : Nat) (set : Tm → Int → Tm)

def digit (b : UInt8) : Bool := 48 ≤ b ∧ b ≤ 57

/-- `isspace` in the C locale. -/
def isSpace (b : UInt8) : Bool := b = 32 ∨ (9 ≤ b ∧ b ≤ 13)

/-- The digits of a number: one is read already if `n` is smaller than it was; stops when another would exceed `hi`. -/
def digits (hi : Nat) : Nat → Nat → Bytes → Nat × Bytes
  | 0, v, s => (v, s)
  | n + 1, v, b :: s => if v * 10 ≤ hi ∧ digit b then digits hi n (v * 10 + (b.toNat - 48)) s else (v, b :: s)
  | _ + 1, v, [] => (v, [])

/-- `get_number` of the C library's `strptime`. -/
def getNumber (lo hi n : Nat) (s : Bytes) : Option (Nat × Bytes) :=
  match s.dropWhile isSpace with
  | [] => none
  | b :: r =>
    if digit b then
      let (v, r) := digits hi (n - 1) (b.toNat - 48) r
      if lo ≤ v ∧ v ≤ hi then some (v, r) else none
    else none

/-- `strptime`: what it stored before it gave up stays. -/
def strptime : List Field → Tm → Bytes → Tm
  | [], t, _ => t
  | .space :: fs, t, s => strptime fs t (s.dropWhile isSpace)
  | .lit c :: fs, t, s =>
    match s with
    | [] => t
    | b :: s => if b = c then strptime fs t s else t
  | .num lo hi n set :: fs, t, s =>
    match getNumber lo hi n s with
    | none => t
    | some (v, s) => strptime fs (set t v) s

/-- `"%Y-%m-%d %H:%M:%S"`. -/
def format : List Field :=
  [.num 0 9999 4 fun t v => { t with year := v }, .lit 45, .num 1 12 2 fun t v => { t with month := v }, .lit 45,
   .num 1 31 2 fun t v => { t with day := v }, .space, .num 0 23 2 fun t v => { t with hour := v }, .lit 58,
   .num 0 59 2 fun t v => { t with min := v }, .lit 58, .num 0 61 2 fun t v => { t with sec := v }]

/-- Days before a month, in a year that is no leap year. -/
def monthStart (m : Int) : Int :=
  if m ≤ 1 then 0 else if m = 2 then 31 else if m = 3 then 59 else if m = 4 then 90 else if m = 5 then 120
  else if m = 6 then 151 else if m = 7 then 181 else if m = 8 then 212 else if m = 9 then 243 else if m = 10 then 273
  else if m = 11 then 304 else 334

/-- `timegm`, and `mktime` where local time is UTC: days that a month does not have run on into the next. -/
def timegm (t : Tm) : Int :=
  let y := if t.month ≤ 2 then t.year - 1 else t.year
  let days := 365 * (t.year - 1970) + (y / 4 - y / 100 + y / 400 - 477) + monthStart t.month + (t.day - 1)
  days * 86400 + t.hour * 3600 + t.min * 60 + t.sec

/-- `struct tm time = {0}`: in the year 1900, in January, on day 0. -/
def zeroTm : Tm := { year := 1900, month := 1, day := 0, hour := 0, min := 0, sec := 0 }

/-- `STimestampToEpoch("%Y-%m-%d %H:%M:%S", …)`, STime.cpp:25-30, where local time is `zone` seconds ahead of UTC.  The result of
`strptime` is not looked at, and the result is unsigned. -/
def toEpoch (zone : Int) (s : Bytes) : Nat := ((timegm (strptime format zeroTm s) - zone) % 2 ^ 64).toNat

/-! ## This morning -/

/-- `STimeThisMorning`, STime.cpp:65-79: `now` is the time in seconds and `hi` the time in microseconds, taken after it. -/
def thisMorning (now hi : Nat) : Int :=
  timegm { gmtime now with hour := 0, min := 0, sec := 0 } * 1000000 + ((hi : Int) - now * 1000000)

/-- `SToTimeval`, STime.cpp:81-85. -/
def toTimeval (when : Nat) : Nat × Nat := (when / 1000000, when % 1000000)

end Bedrock.Stamp
