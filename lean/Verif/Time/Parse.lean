import Verif.Time.Model
import Verif.Text
/-!
# Dates and times as text (src/common/datatypes/Date.cpp, src/common/time/TimeUtils.h)

`std::get_time` belongs to the C++ library and differs between its versions in how many digits a number may have.  The reading of a number is therefore a parameter
(`NumReader`); `readNum` is the one of libstdc++ 13 (bits/locale_facets_nonio.tcc:1049-1081) and `readFixed` one that wants all digits, as older versions do.  The loop over the
format is the one of libstdc++ (the same file, 1457-1562).
-/
namespace Nebula

/-- Date.cpp:98-101 `Date::toString`: `"%d-%02d-%02d"`. -/
def Date.toText (d : Date) : Bytes := intDec d.year ++ 45 :: padDec 2 d.month ++ 45 :: padDec 2 d.day

/-- Date.cpp:103-106 `Time::toString`: `"%02d:%02d:%02d.%06d"`. -/
def Time.toText (t : Time) : Bytes := padDec 2 t.hour ++ 58 :: padDec 2 t.minute ++ 58 :: padDec 2 t.sec ++ 46 :: padDec 6 t.microsec

/-- Date.cpp:108-119 `DateTime::toString`: `"%hd-%02hhu-%02hhuT%02hhu:%02hhu:%02hhu.%u"`; the microseconds are not padded. -/
def DateTime.toText (d : DateTime) : Bytes :=
  intDec d.year ++ 45 :: padDec 2 d.month ++ 45 :: padDec 2 d.day ++ 84 :: padDec 2 d.hour ++ 58 :: padDec 2 d.minute ++ 58 :: padDec 2 d.sec ++ 46 :: intDec d.microsec

/-- How the library reads a number: least and largest value, number of digits, text; the number and the rest of the text, or a failure. -/
abbrev NumReader := Int → Int → Nat → Bytes → Option (Int × Bytes)

/-- locale_facets_nonio.tcc:1058-1072, the loop of `_M_extract_num`: digits still allowed, value so far, digits so far. -/
def numLoop (max : Int) : Nat → Nat → Nat → Bytes → Nat × Nat × Bytes
  | 0, v, i, s => (v, i, s)
  | _ + 1, v, i, [] => (v, i, [])
  | n + 1, v, i, c :: s =>
    if isDigit c then
      let v' := 10 * v + (c.toNat - 48)
      if (v' : Int) > max then (v', i, c :: s) else numLoop max n v' (i + 1) s
    else (v, i, c :: s)

/-- locale_facets_nonio.tcc:1049-1081 `_M_extract_num`. -/
def readNum : NumReader := fun min max len s =>
  let (v, i, r) := numLoop max len 0 0 s
  if i ≠ 0 ∧ min ≤ v ∧ (v : Int) ≤ max then some (v, r) else none

/-- A library that wants as many digits as the format has. -/
def readFixed : NumReader := fun min max len s =>
  let ds := s.take len
  if ds.length = len ∧ len ≠ 0 ∧ ds.all isDigit ∧ min ≤ digitsVal 0 ds ∧ (digitsVal 0 ds : Int) ≤ max then some (digitsVal 0 ds, s.drop len) else none

/-- The members of `std::tm` that the formats set; `none`: never written since the declaration (TimeUtils.h:53, 128, 179), an indeterminate value. -/
structure Tm where
  year : Option Int := none
  mon : Option Int := none
  mday : Option Int := none
  hour : Option Int := none
  min : Option Int := none
  sec : Option Int := none
deriving DecidableEq, Repr

/-- The conversions used: `%Y %m %d %H %M %S`. -/
inductive TmField where
  | year | mon | mday | hour | min | sec
deriving DecidableEq, Repr

/-- locale_facets_nonio.tcc:964-973, 817-825, 767-775, 787-794, 827-834, 866-876: least and largest value, number of digits. -/
def TmField.range : TmField → Int × Int × Nat
  | .year => (0, 9999, 4)
  | .mon => (1, 12, 2)
  | .mday => (1, 31, 2)
  | .hour => (0, 23, 2)
  | .min => (0, 59, 2)
  | .sec => (0, 60, 2)

/-- The same lines: what is stored. -/
def Tm.set (tm : Tm) : TmField → Int → Tm
  | .year, v => { tm with year := some (v - 1900) }
  | .mon, v => { tm with mon := some (v - 1) }
  | .mday, v => { tm with mday := some v }
  | .hour, v => { tm with hour := some v }
  | .min, v => { tm with min := some v }
  | .sec, v => { tm with sec := some v }

/-- The parts of a format. -/
inductive FmtItem where
  | field (f : TmField)
  | lit (c : UInt8)
  | space
deriving DecidableEq, Repr

/-- `tolower` of the C locale. -/
def lowerByte (c : UInt8) : UInt8 := if 65 ≤ c ∧ c ≤ 90 then c + 32 else c

/-- locale_facets_nonio.tcc:1482-1558 the loop of `time_get::get`: whether no failure was signalled, and the members set.  Reaching the end of the text after a conversion sets
`eofbit`, which ends the loop although parts of the format remain (line 1483, 1527-1528). -/
def getLoop (num : NumReader) : List FmtItem → Bytes → Tm → Bool × Tm
  | [], _, tm => (true, tm)
  | _ :: _, [], tm => (false, tm)
  | .field f :: fs, c :: s, tm =>
    match num f.range.1 f.range.2.1 f.range.2.2 (c :: s) with
    | none => (false, tm)
    | some (v, r) => if r = [] then (true, tm.set f v) else getLoop num fs r (tm.set f v)
  | .space :: fs, c :: s, tm => getLoop num fs ((c :: s).dropWhile isSpace) tm
  | .lit l :: fs, c :: s, tm => if lowerByte c = lowerByte l then getLoop num fs s tm else (false, tm)

/-- `ss >> std::get_time(&tm, fmt)` on a fresh stream: blanks are skipped first, a text that ends there fails. -/
def getTime (num : NumReader) (fmt : List FmtItem) (s : Bytes) (tm : Tm) : Bool × Tm :=
  match s.dropWhile isSpace with
  | [] => (false, tm)
  | t => getLoop num fmt t tm

/-- `"%Y-%m-%d"`. -/
def dateFmt : List FmtItem := [.field .year, .lit 45, .field .mon, .lit 45, .field .mday]
/-- `"%H:%M:%S"`. -/
def timeFmt : List FmtItem := [.field .hour, .lit 58, .field .min, .lit 58, .field .sec]

/-- TimeUtils.h:127-140 `parseDate`; reading an indeterminate member is undefined. -/
def parseDate (num : NumReader) (s : Bytes) : R Date :=
  match getTime num dateFmt s {} with
  | (false, _) => .error
  | (true, tm) => match tm.year, tm.mon, tm.mday with
    | some y, some m, some d =>
      let r := Date.mk' (y + 1900) (m + 1) d
      validated r.year r.month r.day r
    | _, _, _ => .ub

/-- TimeUtils.h:178-191 `parseTime`. -/
def parseTime (num : NumReader) (s : Bytes) : R Time :=
  match getTime num timeFmt s {} with
  | (false, _) => .error
  | (true, tm) => match tm.hour, tm.min, tm.sec with
    | some h, some m, some c => .ok ⟨wrapI8 h, wrapI8 m, wrapI8 c, 0⟩
    | _, _, _ => .ub

/-- TimeUtils.h:63-72: the result is put together. -/
def dateTimeOf (tm : Tm) : R DateTime :=
  match tm.year, tm.mon, tm.mday, tm.hour, tm.min, tm.sec with
  | some y, some mo, some d, some h, some mi, some c =>
    let r : DateTime := ⟨wrapI16 (y + 1900), wrapU 4 (mo + 1), wrapU 5 d, wrapU 5 h, wrapU 6 mi, wrapU 6 c, 0⟩
    validated r.year r.month r.day r
  | _, _, _, _, _, _ => .ub

/-- TimeUtils.h:52-73 `parseDateTime`: the second format is tried with what the first has left in `tm`. -/
def parseDateTime (num : NumReader) (s : Bytes) : R DateTime :=
  match getTime num (dateFmt ++ .lit 84 :: timeFmt) s {} with
  | (true, tm) => dateTimeOf tm
  | (false, tm) => match getTime num (dateFmt ++ .space :: timeFmt) s tm with
    | (false, _) => .error
    | (true, tm) => dateTimeOf tm

end Nebula
