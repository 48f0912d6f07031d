import Verif.Base
/-!
# Model of `Date`, `Time`, `DateTime` (src/common/datatypes/Date.h, Date.cpp)

Fields are mathematical integers; conversions to the C++ field types are explicit.
A table access with an index outside the table is undefined behaviour in C++ and is `none` here.
-/
namespace Nebula

/-- Date.cpp:16 `kDaysSoFar`. -/
def kDaysSoFar : List Int := [0, 31, 59, 90, 120, 151, 181, 212, 243, 273, 304, 334, 365]
/-- Date.cpp:17 `kLeapDaysSoFar`. -/
def kLeapDaysSoFar : List Int := [0, 31, 60, 91, 121, 152, 182, 213, 244, 274, 305, 335, 366]

/-- Reading a C++ array at a signed index; outside the array is undefined behaviour (`none`). -/
def arrAt (t : List Int) (i : Int) : Option Int := if 0 ≤ i then t[i.toNat]? else none

/-- Date.h:20-23 `struct Date` (int16 year, int8 month, int8 day). -/
structure Date where
  year : Int
  month : Int
  day : Int
deriving DecidableEq, Repr

/-- Date.h:81-85 `struct Time` (int8 hour, minute, sec, int32 microsec). -/
structure Time where
  hour : Int
  minute : Int
  sec : Int
  microsec : Int
deriving DecidableEq, Repr

/-- Date.h:133-149 `struct DateTime` (bit fields 16 signed, 4, 5, 5, 6, 6, 22 unsigned). -/
structure DateTime where
  year : Int
  month : Int
  day : Int
  hour : Int
  minute : Int
  sec : Int
  microsec : Int
deriving DecidableEq, Repr

namespace Date

/-- Date.h:25 default constructor. -/
def default : Date := ⟨0, 1, 1⟩

/-- Date.h:26 constructor from components (the callers' arguments are converted to the field types). -/
def mk' (y m d : Int) : Date := ⟨wrapI16 y, wrapI8 m, wrapI8 d⟩

/-- Date.h:46-50 `operator==`. -/
def beq (a b : Date) : Bool := a.year == b.year && a.month == b.month && a.day == b.day

/-- Date.h:52-63 `operator<`. -/
def lt (a b : Date) : Bool :=
  if !(a.year == b.year) then decide (a.year < b.year)
  else if !(a.month == b.month) then decide (a.month < b.month)
  else if !(a.day == b.day) then decide (a.day < b.day)
  else false

/-- Date.cpp:23-45 `Date::toInt`: `none` if `month - 1` is outside the month table. -/
def toInt (d : Date) : Option Int :=
  let yearsPassed := d.year + 32768
  let days := yearsPassed * 365
  let days := if yearsPassed > 0 then days + (cdiv (yearsPassed - 1) 4 + 1) else days
  let tbl := if cmod yearsPassed 4 = 0 then kLeapDaysSoFar else kDaysSoFar
  match arrAt tbl (d.month - 1) with
  | none => none
  | some m => some (days + m + d.day - 1)

/-- Date.cpp:59-67, the loop `while (daysInYear <= 0)`.  `year` is an `int16_t`, so each
assignment wraps.  `fuel` bounds the iterations; `fromInt` passes a bound that is never
exhausted (theorem `Nebula.Date.yearLoop_spec`). -/
def yearLoop : Nat → Int → Int → Int × Int
  | 0, year, diy => (year, diy)
  | fuel + 1, year, diy =>
    if diy ≤ 0 then
      let year := wrapI16 (year - 1)
      yearLoop fuel year (if cmod year 4 = 0 then diy + 366 else diy + 365)
    else (year, diy)

/-- Date.cpp:70-85, the loop `while (true)` over the months: returns month and day.
Reading the table past its end is undefined behaviour (`none`). -/
def monthLoop : Nat → Int → Int → Int → Option (Int × Int)
  | 0, _, _, _ => none
  | fuel + 1, year, diy, month =>
    let tbl := if cmod year 4 = 0 then kLeapDaysSoFar else kDaysSoFar
    match arrAt tbl month, arrAt tbl (month - 1) with
    | some hi, some lo =>
      if diy ≤ hi then some (month, wrapI8 (diy - lo))
      else monthLoop fuel year diy (wrapI8 (month + 1))
    | _, _ => none

/-- Date.cpp:47-86 `Date::fromInt` (also Date.cpp:19-21, the explicit constructor). -/
def fromInt (days : Int) : Option Date :=
  let yearsPassed := cdiv (days + 1) 365
  let year := wrapI16 (yearsPassed - 32768)
  let diy := cmod (days + 1) 365
  let diy := if yearsPassed > 0 then diy - (cdiv (yearsPassed - 1) 4 + 1) else diy
  let (year, diy) := yearLoop ((-diy).toNat + 1) year diy
  match monthLoop 13 year diy 1 with
  | none => none
  | some (m, dd) => some ⟨year, m, dd⟩

/-- Date.cpp:88-91 `Date::operator+`.  The addition is on `int64_t`: a sum outside the range is
undefined behaviour (`none`); `fromInt` itself adds one, so the maximum is excluded as well. -/
def add (d : Date) (days : Int) : Option Date :=
  match d.toInt with
  | none => none
  | some n => if -9223372036854775808 ≤ n + days ∧ n + days < 9223372036854775807
              then fromInt (n + days) else none

/-- Date.cpp:93-96 `Date::operator-`. -/
def sub (d : Date) (days : Int) : Option Date :=
  match d.toInt with
  | none => none
  | some n => if -9223372036854775808 ≤ n - days ∧ n - days < 9223372036854775807
              then fromInt (n - days) else none

end Date

namespace Time
/-- Date.h:87 default constructor. -/
def default : Time := ⟨0, 0, 0, 0⟩
/-- Date.h:102-107 `operator==`. -/
def beq (a b : Time) : Bool :=
  a.hour == b.hour && a.minute == b.minute && a.sec == b.sec && a.microsec == b.microsec
/-- Date.h:109-123 `operator<`. -/
def lt (a b : Time) : Bool :=
  if !(a.hour == b.hour) then decide (a.hour < b.hour)
  else if !(a.minute == b.minute) then decide (a.minute < b.minute)
  else if !(a.sec == b.sec) then decide (a.sec < b.sec)
  else if !(a.microsec == b.microsec) then decide (a.microsec < b.microsec)
  else false
end Time

namespace DateTime
/-- Date.h:154 default constructor. -/
def default : DateTime := ⟨0, 1, 1, 0, 0, 0, 0⟩
/-- Date.h:164-172 constructor from a Date (bit-field conversions of month and day). -/
def ofDate (d : Date) : DateTime := ⟨d.year, wrapU 4 d.month, wrapU 5 d.day, 0, 0, 0, 0⟩
/-- Date.h:188-196 `operator==`. -/
def beq (a b : DateTime) : Bool :=
  a.year == b.year && a.month == b.month && a.day == b.day &&
  a.hour == b.hour && a.minute == b.minute && a.sec == b.sec && a.microsec == b.microsec
/-- Date.h:197-220 `operator<`. -/
def lt (a b : DateTime) : Bool :=
  if !(a.year == b.year) then decide (a.year < b.year)
  else if !(a.month == b.month) then decide (a.month < b.month)
  else if !(a.day == b.day) then decide (a.day < b.day)
  else if !(a.hour == b.hour) then decide (a.hour < b.hour)
  else if !(a.minute == b.minute) then decide (a.minute < b.minute)
  else if !(a.sec == b.sec) then decide (a.sec < b.sec)
  else if !(a.microsec == b.microsec) then decide (a.microsec < b.microsec)
  else false
/-- Date.h:138-149, the `qword` view of the bit fields (little-endian GCC/Clang layout: the first
field is least significant); it is the value returned by the hash, Date.cpp:140-142. -/
def qword (a : DateTime) : Int :=
  a.year % 65536 + 65536 * (a.month + 16 * (a.day + 32 * (a.hour + 32 * (a.minute + 64 *
    (a.sec + 64 * a.microsec)))))
end DateTime

/-- folly::hash::fnv64_buf (an external function): an arbitrary function of the bytes and the
running hash.  The hashes of Date and Time (Date.cpp:126-138) chain it over the fields; the bytes
of a field are a function of its value, so the argument here is the field value. -/
structure FnvHash where
  start : Int → Nat
  next : Int → Nat → Nat

/-- Date.cpp:126-130. -/
def Date.hash (H : FnvHash) (d : Date) : Nat := H.next d.day (H.next d.month (H.start d.year))
/-- Date.cpp:132-138. -/
def Time.hash (H : FnvHash) (t : Time) : Nat :=
  H.next t.microsec (H.next t.sec (H.next t.minute (H.start t.hour)))

end Nebula
