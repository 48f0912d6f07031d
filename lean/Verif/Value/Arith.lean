import Verif.Value.Model
import Verif.Text
import Verif.Time.Parse
/-!
# Model of the operators and conversions of `nebula::Value` (src/common/datatypes/Value.cpp)

Results of type `Option Value`: `none` is undefined behaviour.  `fmt` is
`folly::to<std::string>(double)`, an arbitrary function; `strtod` is the C function, an arbitrary
function from the text to the value, the remaining text and the `ERANGE` flag.
-/
namespace Nebula

namespace Value

/-- Value.cpp:87 `kNullValue` and the other constants of Value.cpp:86-94. -/
def kNull : Value := .null .null
def kNullBadType : Value := .null .badType
def kNullOverflow : Value := .null .errOverflow
def kNullDivByZero : Value := .null .divByZero

/-- Value.h:141-143. -/
def isNull : Value → Bool | .null _ => true | _ => false
/-- Value.h:138-140 `empty()`. -/
def isEmpty : Value → Bool | .empty => true | _ => false
/-- Value.h:144-156 `isBadNull`. -/
def isBadNull : Value → Bool
  | .null .null => false
  | .null _ => true
  | _ => false
/-- Value.h:153-155. -/
def isNumeric : Value → Bool | .int _ => true | .float _ => true | _ => false

/-- `__builtin_*_overflow`: the exact result if it fits in `int64_t`, else the overflow NULL. -/
def fit (x : Int) : Value := if InI64 x then .int x else kNullOverflow

/-- `lhs.getBool() ? "true" : "false"`. -/
def boolText (b : Bool) : Bytes := ascii (if b then "true" else "false")

/-- The first lines of each binary operator, e.g. Value.cpp:1914-1919: NULL and EMPTY operands. -/
def propagate (a b : Value) (k : Option Value) : Option Value :=
  if a.isNull || (a.isEmpty && !b.isNull) then some a
  else if b.isNull || b.isEmpty then some b
  else k

/-- Value.cpp:1913-2177 `operator+`. -/
def add (fmt : F64 → Bytes) (a b : Value) : Option Value :=
  propagate a b <|
    match a, b with
    | .bool x, .str s => some (.str (boolText x ++ cstr s))
    | .int x, .int y => some (fit (x + y))
    | .int x, .float y => some (.float (F64.add (F64.ofInt x) y))
    | .int x, .str s => some (.str (intDec x ++ cstr s))
    | .int x, .date d => (d.add x).map .date
    | .float x, .int y => some (.float (F64.add x (F64.ofInt y)))
    | .float x, .float y => some (.float (F64.add x y))
    | .float x, .str s => some (.str (fmt x ++ s))
    | .str s, .bool x => some (.str (cstr s ++ boolText x))
    | .str s, .int x => some (.str (cstr s ++ intDec x))
    | .str s, .float x => some (.str (s ++ fmt x))
    | .str s, .str t => some (.str (s ++ t))
    | .str s, .date d => some (.str (s ++ d.toText))
    | .str s, .time d => some (.str (s ++ d.toText))
    | .str s, .datetime d => some (.str (s ++ d.toText))
    | .date d, .int x => (d.add x).map .date
    | .date d, .str s => some (.str (d.toText ++ s))
    | .time d, .str s => some (.str (d.toText ++ s))
    | .datetime d, .str s => some (.str (d.toText ++ s))
    | .list x, .list y => some (.list (x ++ y))
    | .list _, .dataset _ _ => some kNullBadType
    | .list x, y => some (.list (x ++ [y]))
    | .dataset _ _, .list _ => some kNullBadType
    | x, .list y => some (.list (x :: y))
    | _, _ => some kNullBadType

/-- Value.cpp:2180-2238 `operator-`. -/
def sub (a b : Value) : Option Value :=
  propagate a b <|
    match a, b with
    | .int x, .int y => some (fit (x - y))
    | .int x, .float y => some (.float (F64.sub (F64.ofInt x) y))
    | .float x, .int y => some (.float (F64.sub x (F64.ofInt y)))
    | .float x, .float y => some (.float (F64.sub x y))
    | .date d, .int x => (d.sub x).map .date
    | .date d, .date e => match d.toInt, e.toInt with
      | some x, some y => some (.int (x - y))
      | _, _ => none
    | _, _ => some kNullBadType

/-- Value.cpp:2241-2290 `operator*`. -/
def mul (a b : Value) : Option Value :=
  propagate a b <|
    match a, b with
    | .int x, .int y => some (
        if (x = -1 ∧ y = -9223372036854775808) ∨ (y = -1 ∧ x = -9223372036854775808)
        then kNullOverflow else fit (x * y))
    | .int x, .float y => some (.float (F64.mul (F64.ofInt x) y))
    | .float x, .int y => some (.float (F64.mul x (F64.ofInt y)))
    | .float x, .float y => some (.float (F64.mul x y))
    | _, _ => some kNullBadType

/-- Value.cpp:2293-2356 `operator/`.  C++ `/` on integers truncates towards zero. -/
def div (a b : Value) : Option Value :=
  propagate a b <|
    match a, b with
    | .int x, .int y => some (
        if y = 0 then kNullDivByZero
        else if x = -9223372036854775808 ∧ y = -1 then kNullOverflow
        else .int (Int.tdiv x y))
    | .int x, .float y => some (
        if F64.lt F64.eps (F64.abs y) then .float (F64.div (F64.ofInt x) y) else kNullDivByZero)
    | .float x, .int y => some (
        if y ≠ 0 then .float (F64.div x (F64.ofInt y)) else kNullDivByZero)
    | .float x, .float y => some (
        if F64.lt F64.eps (F64.abs y) then .float (F64.div x y) else kNullDivByZero)
    | _, _ => some kNullBadType

/-- Value.cpp:2358-2417 `operator%`.  `INT64_MIN % -1` is undefined behaviour in C++ ([expr.mul]/4:
the quotient is not representable). -/
def mod (a b : Value) : Option Value :=
  propagate a b <|
    match a, b with
    | .int x, .int y =>
        if y ≠ 0 then
          if x = -9223372036854775808 ∧ y = -1 then none else some (.int (Int.tmod x y))
        else some kNullDivByZero
    | .int x, .float y => some (
        if F64.lt F64.eps (F64.abs y) then .float (F64.fmod (F64.ofInt x) y) else kNullDivByZero)
    | .float x, .int y => some (
        if y ≠ 0 then .float (F64.fmod x (F64.ofInt y)) else kNullDivByZero)
    | .float x, .float y => some (
        if F64.lt F64.eps (F64.abs y) then .float (F64.fmod x y) else kNullDivByZero)
    | _, _ => some kNullBadType

/-- Value.cpp:2419-2441 unary `operator-`. -/
def neg : Value → Value
  | .null n => .null n
  | .empty => .empty
  | .int x => if x = -9223372036854775808 then kNullOverflow else .int (-x)
  | .float x => .float (F64.neg x)
  | _ => kNullBadType

/-- Value.cpp:2443-2454 `operator!`. -/
def not : Value → Value
  | .null n => .null n
  | .empty => .empty
  | .bool b => .bool (!b)
  | _ => kNullBadType

/-- Value.cpp:2635-2654 `operator&&`. -/
def and (a b : Value) : Value :=
  if a.isNull then a else if b.isNull then b
  else if a.isEmpty || b.isEmpty then .empty
  else match a, b with
    | .bool x, .bool y => .bool (x && y)
    | _, _ => kNullBadType

/-- Value.cpp:2656-2675 `operator||`. -/
def or (a b : Value) : Value :=
  if a.isNull then a else if b.isNull then b
  else if a.isEmpty || b.isEmpty then .empty
  else match a, b with
    | .bool x, .bool y => .bool (x || y)
    | _, _ => kNullBadType

/-- A bitwise operation on `int64_t` (two's complement, 64 bits). -/
def bits (f : BitVec 64 → BitVec 64 → BitVec 64) (x y : Int) : Int :=
  (f (BitVec.ofInt 64 x) (BitVec.ofInt 64 y)).toInt

/-- Value.cpp:2677-2744 `operator&`, `operator|`, `operator^` (identical up to the operation). -/
def bitOp (f : BitVec 64 → BitVec 64 → BitVec 64) (a b : Value) : Value :=
  if a.isNull || (a.isEmpty && !b.isNull) then a
  else if b.isNull || b.isEmpty then b
  else match a, b with
    | .int x, .int y => .int (bits f x y)
    | _, _ => kNullBadType
def bitAnd : Value → Value → Value := bitOp (· &&& ·)
def bitOr : Value → Value → Value := bitOp (· ||| ·)
def bitXor : Value → Value → Value := bitOp (· ^^^ ·)

/-- Value.cpp:1656-1743 `lessThan`.  For MAP, SET and DATASET there is no `operator<` on the C++
types; the operands convert to `Value` and `Value`'s `operator<` returns false. -/
def lessThan (a b : Value) : Value :=
  if a.isEmpty || b.isEmpty then (if b.isNull || a.isNull then kNull else .empty)
  else if a.isNull || b.isNull || (a.typeFlag ≠ b.typeFlag && !(a.isNumeric && b.isNumeric)) then kNull
  else match a, b with
    | .int x, .float y =>
      .bool (F64.le F64.eps (F64.abs (F64.sub (F64.ofInt x) y)) && F64.lt (F64.ofInt x) y)
    | .float x, .int y =>
      .bool (F64.le F64.eps (F64.abs (F64.sub x (F64.ofInt y))) && F64.lt x (F64.ofInt y))
    | .float x, .float y => .bool (F64.le F64.eps (F64.abs (F64.sub x y)) && F64.lt x y)
    | a, b => .bool (lt a b)

/-- Value.cpp:1745-1830 `equal`. -/
def equal (a b : Value) : Value :=
  if a.isEmpty then (if b.isNull then kNull else .bool b.isEmpty)
  else if a.isNull || b.isNull then kNull
  else if a.typeFlag ≠ b.typeFlag && !(a.isNumeric && b.isNumeric) then .bool false
  else .bool (beq a b)

/-! ## Conversions -/

/-- `::tolower` on ASCII. -/
def toLower (c : UInt8) : UInt8 := if 65 ≤ c && c ≤ 90 then c + 32 else c

/-- Value.cpp:1558-1582 `toBool`. -/
def toBool : Value → Value
  | .empty => kNull
  | .null _ => kNull
  | .bool b => .bool b
  | .str s =>
    let l := s.map toLower
    if l = ascii "true" then .bool true else if l = ascii "false" then .bool false else kNull
  | _ => kNullBadType

/-- `strtod`: value, text at `pEnd`, whether `errno` became `ERANGE`. -/
abbrev StrToD := Bytes → F64 × Bytes × Bool

/-- Value.cpp:1584-1609 `toFloat`. -/
def toFloat (strtod : StrToD) : Value → Value
  | .empty => kNull
  | .null _ => kNull
  | .int i => .float (F64.ofInt i)
  | .float f => .float f
  | .str s =>
    match strtod (cstr s) with
    | (v, rest, _) => if rest ≠ [] then kNull else .float v
  | _ => kNullBadType

/-- `static_cast<int64_t>(double)`: undefined behaviour (`none`) if the truncated value is not
representable. -/
def castI64 : F64 → Option Int
  | .fin q => if InI64 (F64.trunc q) then some (F64.trunc q) else none
  | _ => none

/-- Value.cpp:1611-1654 `toInt`. -/
def toInt (strtod : StrToD) : Value → Option Value
  | .empty => some kNull
  | .null _ => some kNull
  | .int i => some (.int i)
  | .float f =>
    if F64.le f (F64.ofInt (-9223372036854775808)) then some (.int (-9223372036854775808))
    else if F64.le (F64.ofInt 9223372036854775807) f then some (.int 9223372036854775807)
    else (castI64 f).map .int
  | .str s =>
    let r : Option StrTo :=
      if s.all (· ≠ 46) then some (strtoll (cstr s))
      else match strtod (cstr s) with
        | (v, rest, er) => (castI64 v).map fun i => ⟨i, rest, er⟩
    r.map fun r =>
      if r.rest ≠ [] then kNull
      else if (r.val = 9223372036854775807 ∨ r.val = -9223372036854775808) ∧ r.erange then kNullOverflow
      else .int r.val
  | _ => some kNullBadType

end Value
end Nebula
