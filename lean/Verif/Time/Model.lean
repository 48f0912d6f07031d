import Verif.Date.Model
/-!
# Model of `TimeConversion` (src/common/time/TimeConversion.h, TimeConversion.cpp) and of the
date validation and map constructors of `TimeUtils` (src/common/time/TimeUtils.h, TimeUtils.cpp)
-/
namespace Nebula

/-- TimeConversion.h:86-96 `isLeapYear(int16_t year)`; the argument has already been converted. -/
def isLeapYear (year : Int) : Bool :=
  if cmod year 4 ≠ 0 then false
  else if cmod year 100 ≠ 0 then true
  else if cmod year 400 ≠ 0 then false
  else true

/-- TimeConversion.h:113-116 `shr`: arithmetic shift right, i.e. floor division by `2^b`. -/
def shr (a : Int) (b : Nat) : Int := a / (2 ^ b : Int)

/-- C++ `!e` for a boolean condition used as an integer. -/
def notNum (c : Bool) : Int := if c then 1 else 0

/-- TimeConversion.cpp:12 `kEpoch`. -/
def kEpoch : DateTime := ⟨1970, 1, 1, 0, 0, 0, 0⟩

/-- TimeConversion.cpp:24,26: `a4` and `(a4 + (a4 < 0)) / 25 - (a4 < 0)`. -/
def leapA4 (year : Int) : Int := shr year 2 + shr 0 2 - notNum (year % 4 == 0)
/-- TimeConversion.cpp:26-27. -/
def leapA100 (a4 : Int) : Int := cdiv (a4 + notNum (a4 < 0)) 25 - notNum (a4 < 0)

/-- TimeConversion.cpp:14-44 `dateTimeDiffSeconds`.  `year & 3` is `year mod 4` (two's complement).
Table accesses outside the table are undefined behaviour (`none`).  No intermediate result can
overflow: the bit fields bound all operands. -/
def dateTimeDiffSeconds (a b : DateTime) : Option Int :=
  let a4 := leapA4 a.year
  let b4 := leapA4 b.year
  let a100 := leapA100 a4
  let b100 := leapA100 b4
  let a400 := shr a100 2
  let b400 := shr b100 2
  let interveningLeapDays := (a4 - b4) - (a100 - b100) + (a400 - b400)
  let years := a.year - b.year
  match arrAt (if isLeapYear a.year then kLeapDaysSoFar else kDaysSoFar) (a.month - 1),
        arrAt (if isLeapYear b.year then kLeapDaysSoFar else kDaysSoFar) (b.month - 1) with
  | some ma, some mb =>
    let days := 365 * years + ma - mb + a.day - b.day + interveningLeapDays
    let hours := 24 * days + a.hour - b.hour
    let minutes := 60 * hours + a.minute - b.minute
    some (60 * minutes + a.sec - b.sec)
  | _, _ => none

/-- TimeConversion.h:24-26 `dateTimeToUnixSeconds`. -/
def dateTimeToUnixSeconds (d : DateTime) : Option Int := dateTimeDiffSeconds d kEpoch

/-- TimeConversion.cpp:67 macro `DIV`. -/
def DIV (a b : Int) : Int := cdiv a b - notNum (cmod a b < 0)
/-- TimeConversion.cpp:68 macro `LEAPS_THRU_END_OF`. -/
def leapsThruEndOf (y : Int) : Int := DIV y 4 - DIV y 100 + DIV y 400

/-- TimeConversion.cpp:70-78, the loop that corrects the year.  `isLeapYear` takes an `int16_t`,
so the year is converted in the test.  `none`: the iteration bound was exhausted (never happens on
the representable range, theorem `Nebula.yearSearch_spec`). -/
def yearSearch : Nat → Int → Int → Option (Int × Int)
  | 0, _, _ => none
  | fuel + 1, y, days =>
    if days < 0 ∨ days ≥ (if isLeapYear (wrapI16 y) then 366 else 365) then
      let yg := y + cdiv days 365 - notNum (cmod days 365 < 0)
      yearSearch fuel yg
        (days - ((yg - y) * 365 + leapsThruEndOf (yg - 1) - leapsThruEndOf (y - 1)))
    else some (y, days)

/-- TimeConversion.cpp:84-86, `for (y = 11; days < ip[y]; --y)`: the index found.  Going below
index 0 would read outside the table (`none`). -/
def monthSearch (ip : List Int) (days : Int) : Nat → Option Int
  | 0 => match arrAt ip 0 with
    | some t => if days < t then none else some 0
    | none => none
  | i + 1 => match arrAt ip ((i : Int) + 1) with
    | some t => if days < t then monthSearch ip days i else some ((i : Int) + 1)
    | none => none

/-- TimeConversion.cpp:46-91 `unixSecondsToDateTime`.  Simplification: the two normalisation loops
(53-60) run at most once resp. never because `|rem| < kSecondsOfDay` after `%`; they are an `if`. -/
def unixSecondsToDateTime (seconds : Int) : Option DateTime :=
  let days := cdiv seconds 86400
  let rem := cmod seconds 86400
  let (rem, days) := if rem < 0 then (rem + 86400, days - 1) else (rem, days)
  let hour := cdiv rem 3600
  let rem := cmod rem 3600
  let minute := cdiv rem 60
  let sec := cmod rem 60
  match yearSearch (days.natAbs + 2) 1970 days with
  | none => none
  | some (y, days) =>
    let ip := if isLeapYear (wrapI16 y) then kLeapDaysSoFar else kDaysSoFar
    match monthSearch ip days 11 with
    | none => none
    | some m =>
      match arrAt ip m with
      | none => none
      | some t => some ⟨wrapI16 y, wrapU 4 (m + 1), wrapU 5 (days - t + 1),
                        wrapU 5 hour, wrapU 6 minute, wrapU 6 sec, 0⟩

/-- TimeConversion.h:31-38 `dateTimeShift`. -/
def dateTimeShift (d : DateTime) (off : Int) : Option DateTime :=
  if off = 0 then some d
  else match dateTimeToUnixSeconds d with
    | none => none
    | some s => (unixSecondsToDateTime (s + off)).map fun r => { r with microsec := d.microsec }

/-- TimeConversion.h:41-43 `dateToUnixSeconds`. -/
def dateToUnixSeconds (d : Date) : Option Int := dateTimeDiffSeconds (DateTime.ofDate d) kEpoch

/-- TimeConversion.h:45-48 `unixSecondsToDate`. -/
def unixSecondsToDate (s : Int) : Option Date :=
  (unixSecondsToDateTime s).map fun dt => Date.mk' dt.year dt.month dt.day

/-- TimeConversion.h:51-56 `dateShift`. -/
def dateShift (d : Date) (off : Int) : Option Date :=
  if off = 0 then some d
  else match dateToUnixSeconds d with
    | none => none
    | some s => unixSecondsToDate (s + off)

/-- TimeConversion.h:59-64 `timeToSeconds`. -/
def timeToSeconds (t : Time) : Int := t.sec + t.minute * 60 + t.hour * 3600

/-- TimeConversion.h:66-73 `unixSecondsToTime`. -/
def unixSecondsToTime (s : Int) : Option Time :=
  (unixSecondsToDateTime s).map fun dt => ⟨wrapI8 dt.hour, wrapI8 dt.minute, wrapI8 dt.sec, 0⟩

/-- TimeConversion.h:76-83 `timeShift`. -/
def timeShift (t : Time) (off : Int) : Option Time :=
  if off = 0 then some t
  else (unixSecondsToTime (timeToSeconds t + off)).map fun r => { r with microsec := t.microsec }

/-- TimeUtils.h:43-49 `validateDate`: `none` is an out-of-table access, `some ok` the verdict. -/
def validateYMD (year month day : Int) : Option Bool :=
  let p := if isLeapYear year then kLeapDaysSoFar else kDaysSoFar
  match arrAt p month, arrAt p (month - 1) with
  | some hi, some lo => some (!decide (hi - lo < day))
  | _, _ => none

/-- Outcome of a constructor returning `StatusOr`: a value, an error status, or undefined behaviour. -/
inductive R (α : Type) where
  | ok (a : α)
  | error
  | ub
deriving DecidableEq, Repr

/-- TimeUtils.cpp:23-64, one iteration of the loop of `dateTimeFromMap`.  The value is `some i` for an
INT value and `none` for a value of any other type (line 23). -/
def dateTimeSet (dt : DateTime) (k : String) : Option Int → R DateTime
  | none => .error
  | some i =>
    if k = "year" then (if i < -32768 ∨ i > 32767 then .error else .ok { dt with year := i })
    else if k = "month" then (if i ≤ 0 ∨ i > 12 then .error else .ok { dt with month := i })
    else if k = "day" then (if i ≤ 0 ∨ i > 31 then .error else .ok { dt with day := i })
    else if k = "hour" then (if i < 0 ∨ i > 23 then .error else .ok { dt with hour := i })
    else if k = "minute" then (if i < 0 ∨ i > 59 then .error else .ok { dt with minute := i })
    else if k = "second" then (if i < 0 ∨ i > 59 then .error else .ok { dt with sec := i })
    else if k = "microsecond" then (if i < 0 ∨ i > 999999 then .error else .ok { dt with microsec := i })
    else .error

/-- TimeUtils.cpp:79-97, one iteration of the loop of `dateFromMap`. -/
def dateSet (d : Date) (k : String) : Option Int → R Date
  | none => .error
  | some i =>
    if k = "year" then (if i < -32768 ∨ i > 32767 then .error else .ok { d with year := i })
    else if k = "month" then (if i ≤ 0 ∨ i > 12 then .error else .ok { d with month := i })
    else if k = "day" then (if i ≤ 0 ∨ i > 31 then .error else .ok { d with day := i })
    else .error

/-- TimeUtils.cpp:112-134, one iteration of the loop of `timeFromMap`. -/
def timeSet (t : Time) (k : String) : Option Int → R Time
  | none => .error
  | some i =>
    if k = "hour" then (if i < 0 ∨ i > 23 then .error else .ok { t with hour := i })
    else if k = "minute" then (if i < 0 ∨ i > 59 then .error else .ok { t with minute := i })
    else if k = "second" then (if i < 0 ∨ i > 59 then .error else .ok { t with sec := i })
    else if k = "microsecond" then (if i < 0 ∨ i > 999999 then .error else .ok { t with microsec := i })
    else .error

/-- The `for (const auto &kv : m.kvs)` loop with early return.  The map is given as the list of its
entries in iteration order. -/
def mapLoop {α : Type} (set : α → String → Option Int → R α) : α → List (String × Option Int) → R α
  | a, [] => .ok a
  | a, (k, v) :: rest =>
    match set a k v with
    | .ok a' => mapLoop set a' rest
    | .error => .error
    | .ub => .ub

/-- `validateDate` of the assembled result (TimeUtils.cpp:66-70, 99-103). -/
def validated {α : Type} (y m d : Int) (a : α) : R α :=
  match validateYMD y m d with
  | some true => .ok a
  | some false => .error
  | none => .ub

/-- TimeUtils.cpp:19-71 `dateTimeFromMap`. -/
def dateTimeFromMap (m : List (String × Option Int)) : R DateTime :=
  match mapLoop dateTimeSet DateTime.default m with
  | .ok dt => validated dt.year dt.month dt.day dt
  | r => r

/-- TimeUtils.cpp:73-104 `dateFromMap`. -/
def dateFromMap (m : List (String × Option Int)) : R Date :=
  match mapLoop dateSet Date.default m with
  | .ok d => validated d.year d.month d.day d
  | r => r

/-- TimeUtils.cpp:106-137 `timeFromMap`. -/
def timeFromMap (m : List (String × Option Int)) : R Time := mapLoop timeSet Time.default m

end Nebula
