import Verif.Time.Model
/-!
# The time zone of the process and the local clock

Model of `src/common/time/TimezoneInfo.{h,cpp}` and of the functions of `src/common/time/TimeUtils.h` that
use the global time zone. The time zone library (boost) is a parameter: what a POSIX time zone text means,
and what the zone file contains.
-/
namespace Nebula.Tz

/-- A time zone: `base_utc_offset` in seconds (TimezoneInfo.h:63-65) and `std_zone_name` (58-60). -/
structure Zone where
  offset : Int
  name : Bytes
deriving DecidableEq, Repr

/-- What the process sees of the outside. -/
structure Outside where
  /-- `getenv("TZ")` -/
  tz : Option Bytes
  /-- the zone file, by region; `none`: `load_from_file` throws -/
  file : Option (Bytes → Option Zone)
  /-- `posix_time_zone(text)`; `none`: it throws -/
  posix : Bytes → Option Zone

/-- `globalTimezone.zoneInfo_`, `tzdb` and `FLAGS_timezone_name` (TimezoneInfo.cpp:16-28). -/
structure St where
  zone : Option Zone := none
  db : Bytes → Option Zone := fun _ => none
  flag : Bytes

/-- `init` (TimezoneInfo.h:27-36): regions loaded replace those there. A file that cannot be loaded is
taken to add nothing. -/
def St.load (o : Outside) (s : St) : Option St :=
  o.file.map fun f => { s with db := fun r => (f r).or (s.db r) }

/-- `loadFromDb` (TimezoneInfo.h:38-44): `zoneInfo_` is assigned before it is checked. -/
def St.fromDb (s : St) (region : Bytes) : St × Bool :=
  let s := { s with zone := s.db region }
  (s, s.zone.isSome)

/-- `parsePosixTimezone` (TimezoneInfo.h:47-56): if the constructor throws, `zoneInfo_` keeps its value. -/
def St.fromPosix (o : Outside) (s : St) (text : Bytes) : St × Bool :=
  match o.posix text with
  | some z => ({ s with zone := some z }, true)
  | none => (s, false)

/-- `initializeGlobalTimezone` (TimezoneInfo.cpp:32-37): an empty flag is filled from the environment. -/
def St.choose (o : Outside) (s : St) : St := if s.flag = [] then { s with flag := s.flag ++ o.tz.getD [] } else s

/-- `initializeGlobalTimezone` (TimezoneInfo.cpp:38-48); 58 is `:`. -/
def St.take (o : Outside) (s : St) : St × Bool :=
  match s.flag with
  | [] => (s, false)
  | c :: r =>
    if c = 58 then
      match s.load o with
      | none => (s, false)
      | some s => s.fromDb r
    else s.fromPosix o (c :: r)

/-- `initializeGlobalTimezone` (TimezoneInfo.cpp:30-49). -/
def St.init (o : Outside) (s : St) : St × Bool := (s.choose o).take o

/-- `utcOffsetSecs` (TimezoneInfo.h:63-65) of the global zone; `none`: a null pointer is followed. -/
def St.utcOffset (s : St) : Option Int := s.zone.map (·.offset)

/-- TimeUtils.h:78-81 `dateTimeToUTC`. -/
def dateTimeToUTC (s : St) (d : DateTime) : Option DateTime := s.utcOffset.bind fun o => dateTimeShift d (-o)

/-- TimeUtils.h:83-86 `utcToDateTime`. -/
def utcToDateTime (s : St) (d : DateTime) : Option DateTime := s.utcOffset.bind fun o => dateTimeShift d o

/-- TimeUtils.h:194-196 `timeToUTC`. -/
def timeToUTC (s : St) (t : Time) : Option Time := s.utcOffset.bind fun o => timeShift t (-o)

/-- TimeUtils.h:198-200 `utcToTime`. -/
def utcToTime (s : St) (t : Time) : Option Time := s.utcOffset.bind fun o => timeShift t o

/-- TimeUtils.h:96-101 `utcDateTime`, the clock (TimeUtils.h:242-245 `unixTime`) showing `ms` milliseconds. -/
def utcDateTime (ms : Nat) : Option DateTime :=
  (unixSecondsToDateTime (ms / 1000 : Nat)).map fun d => { d with microsec := (ms % 1000 * 1000 : Nat) }

/-- TimeUtils.h:88-94 `localDateTime`. -/
def localDateTime (s : St) (ms : Nat) : Option DateTime :=
  s.utcOffset.bind fun o =>
    (unixSecondsToDateTime ((ms / 1000 : Nat) - o)).map fun d => { d with microsec := (ms % 1000 * 1000 : Nat) }

/-- TimeUtils.h:210-215 `utcTime`. -/
def utcTime (ms : Nat) : Option Time :=
  (unixSecondsToTime (ms / 1000 : Nat)).map fun t => { t with microsec := (ms % 1000 * 1000 : Nat) }

/-- TimeUtils.h:202-208 `localTime`. -/
def localTime (s : St) (ms : Nat) : Option Time :=
  s.utcOffset.bind fun o =>
    (unixSecondsToTime ((ms / 1000 : Nat) - o)).map fun t => { t with microsec := (ms % 1000 * 1000 : Nat) }

/-- TimeUtils.h:152-159 `utcDate`, `time(NULL)` being `sec`; outside `none` is undefined, inside it is the
error of a clock that cannot be read. -/
def utcDate (sec : Int) : Option (Option Date) := if sec = -1 then some none else (unixSecondsToDate sec).map some

/-- TimeUtils.h:142-150 `localDate`. -/
def localDate (s : St) (sec : Int) : Option (Option Date) :=
  if sec = -1 then some none else s.utcOffset.bind fun o => (unixSecondsToDate (sec - o)).map some

end Nebula.Tz
