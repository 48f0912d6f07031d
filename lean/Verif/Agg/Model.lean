import Verif.Value.Arith
/-!
# Model of the aggregate functions (src/common/function/AggFunctionManager.{h,cpp})

`AggData` is the mutable record the functions work on; a function is one step `AggData → Value →
Option AggData`, `none` being undefined behaviour of an operator of `Value`.  `fmt` is
`folly::to<std::string>(double)`, `sqrt` is `std::sqrt`: arbitrary functions.
-/
namespace Nebula
open Value

/-- AggFunctionManager.h:114-120 the members of AggData. -/
structure AggData where
  cnt : Value
  sum : Value
  avg : Value
  deviation : Value
  result : Value
  uniques : List Value

/-- AggFunctionManager.h:25-36 the constructor. -/
def AggData.init : AggData :=
  ⟨.int 0, .float (.fin 0), .float (.fin 0), .float (.fin 0), Value.kNull, []⟩

namespace Agg

/-- The library functions used by the aggregate functions. -/
structure Lib where
  fmt : F64 → Bytes
  sqrt : F64 → F64

/-- AggFunctionManager.cpp:170-235: `res & val` etc. with the surrounding tests. -/
def bitStep (op : Value → Value → Value) (d : AggData) (v : Value) : AggData :=
  if d.result.isBadNull then d
  else if !v.isNull && !v.isEmpty && !(match v with | .int _ => true | _ => false) then { d with result := kNullBadType }
  else if v.isNull || v.isEmpty then d
  else if d.result.isNull then { d with result := v }
  else { d with result := op d.result v }

/-- AggFunctionManager.cpp:27-43 COUNT. -/
def countStep (L : Lib) (d : AggData) (v : Value) : Option AggData :=
  if d.result.isBadNull then some d
  else
    let res := if d.result.isNull then .int 0 else d.result
    if v.isNull || v.isEmpty then some { d with result := res }
    else (Value.add L.fmt res (.int 1)).map fun r => { d with result := r }

/-- AggFunctionManager.cpp:44-68 SUM (line 63 cannot be reached: `res` is not NULL any more). -/
def sumStep (L : Lib) (d : AggData) (v : Value) : Option AggData :=
  if d.result.isBadNull then some d
  else
    let res := if d.result.isNull then .int 0 else d.result
    if !v.isNull && !v.isEmpty && !v.isNumeric then some { d with result := kNullBadType }
    else if v.isNull || v.isEmpty then some { d with result := res }
    else (Value.add L.fmt res v).map fun r => { d with result := r }

/-- AggFunctionManager.cpp:69-96 AVG. -/
def avgStep (L : Lib) (d : AggData) (v : Value) : Option AggData :=
  if d.result.isBadNull then some d
  else if !v.isNull && !v.isEmpty && !v.isNumeric then some { d with result := kNullBadType }
  else if v.isNull || v.isEmpty then some d
  else
    let sum := if d.result.isNull then .float (.fin 0) else d.sum
    let cnt := if d.result.isNull then .float (.fin 0) else d.cnt
    match Value.add L.fmt sum v, Value.add L.fmt cnt (.int 1) with
    | some sum, some cnt => (Value.div sum cnt).map fun r => { d with sum := sum, cnt := cnt, result := r }
    | _, _ => none

/-- AggFunctionManager.cpp:97-116 MAX (`val > res` is `res < val`, Value.cpp:2623-2625). -/
def maxStep (d : AggData) (v : Value) : AggData :=
  if d.result.isBadNull then d
  else if v.isNull || v.isEmpty then d
  else if d.result.isNull then { d with result := v }
  else if Value.lt d.result v then { d with result := v }
  else d

/-- AggFunctionManager.cpp:117-135 MIN. -/
def minStep (d : AggData) (v : Value) : AggData :=
  if d.result.isBadNull then d
  else if v.isNull || v.isEmpty then d
  else if d.result.isNull then { d with result := v }
  else if Value.lt v d.result then { d with result := v }
  else d

/-- AggFunctionManager.cpp:161-163: the new deviation. -/
def newDeviation (L : Lib) (cnt avg dev v : Value) : Option Value := do
  let c1 ← Value.sub cnt (.int 1)
  let cc ← Value.mul cnt cnt
  let q ← Value.div c1 cc
  let x ← Value.sub v avg
  let xx ← Value.mul x x
  let a ← Value.mul q xx
  let q2 ← Value.div c1 cnt
  let b ← Value.mul q2 dev
  Value.add L.fmt a b

/-- AggFunctionManager.cpp:136-169 STD. -/
def stdStep (L : Lib) (d : AggData) (v : Value) : Option AggData :=
  if d.result.isBadNull then some d
  else if !v.isNull && !v.isEmpty && !v.isNumeric then some { d with result := kNullBadType }
  else if v.isNull || v.isEmpty then some d
  else
    let zero : Value := .float (.fin 0)
    let cnt := if d.result.isNull then zero else d.cnt
    let avg := if d.result.isNull then zero else d.avg
    let dev := if d.result.isNull then zero else d.deviation
    do
      let cnt ← Value.add L.fmt cnt (.int 1)
      let dev ← newDeviation L cnt avg dev v
      let x ← Value.sub v avg
      let q ← Value.div x cnt
      let avg ← Value.add L.fmt avg q
      let r := match dev with
        | .float f => .float (L.sqrt f)
        | _ => kNullBadType
      some { d with cnt := cnt, avg := avg, deviation := dev, result := r }

/-- AggFunctionManager.cpp:236-256 COLLECT. -/
def collectStep (d : AggData) (v : Value) : AggData :=
  if d.result.isBadNull then d
  else
    let res := if d.result.isNull then .list [] else d.result
    if v.isNull || v.isEmpty then { d with result := res }
    else match res with
      | .list l => { d with result := .list (l ++ [v]) }
      | _ => { d with result := .null .badData }

/-- `unordered_set::emplace`: ignored if an equal element is present (see Verif.Value.Model for the
simplification of hashing). -/
def setInsert (s : List Value) (v : Value) : List Value := if s.any fun x => Value.beq x v then s else s ++ [v]

/-- AggFunctionManager.cpp:257-278 COLLECT_SET. -/
def collectSetStep (d : AggData) (v : Value) : AggData :=
  if d.result.isBadNull then d
  else
    let res := if d.result.isNull then .set [] else d.result
    if v.isNull || v.isEmpty then { d with result := res }
    else match res with
      | .set l => { d with result := .set (setInsert l v) }
      | _ => { d with result := .null .badData }

/-- `::toupper` on ASCII. -/
def toUpper (c : UInt8) : UInt8 := if 97 ≤ c && c ≤ 122 then c - 32 else c

/-- The aggregate functions. -/
inductive Fn where
  | none | count | sum | avg | max | min | std | bitAnd | bitOr | bitXor | collect | collectSet
deriving DecidableEq, Repr

/-- AggFunctionManager.cpp:19-278: the table `functions_`. -/
def table : List (Bytes × Fn) :=
  [([], .none), (ascii "COUNT", .count), (ascii "SUM", .sum), (ascii "AVG", .avg), (ascii "MAX", .max),
   (ascii "MIN", .min), (ascii "STD", .std), (ascii "BIT_AND", .bitAnd), (ascii "BIT_OR", .bitOr),
   (ascii "BIT_XOR", .bitXor), (ascii "COLLECT", .collect), (ascii "COLLECT_SET", .collectSet)]

/-- AggFunctionManager.cpp:293-302 `getInternal`. -/
def get (name : Bytes) : Option Fn := table.lookup (name.map toUpper)

/-- One call of the function. -/
def step (L : Lib) : Fn → AggData → Value → Option AggData
  | .none, d, v => some { d with result := v }
  | .count, d, v => countStep L d v
  | .sum, d, v => sumStep L d v
  | .avg, d, v => avgStep L d v
  | .max, d, v => some (maxStep d v)
  | .min, d, v => some (minStep d v)
  | .std, d, v => stdStep L d v
  | .bitAnd, d, v => some (bitStep Value.bitAnd d v)
  | .bitOr, d, v => some (bitStep Value.bitOr d v)
  | .bitXor, d, v => some (bitStep Value.bitXor d v)
  | .collect, d, v => some (collectStep d v)
  | .collectSet, d, v => some (collectSetStep d v)

/-- AggregateExpression.cpp:39-54 `eval` on the value of the argument (without the argument's
evaluation): with DISTINCT a value already seen is skipped. -/
def feed (L : Lib) (f : Fn) (distinct : Bool) (d : AggData) (v : Value) : Option AggData :=
  if distinct then
    if d.uniques.any fun x => Value.beq x v then some d
    else step L f { d with uniques := d.uniques ++ [v] } v
  else step L f d v

/-- The calls for a sequence of values. -/
def run (L : Lib) (f : Fn) (distinct : Bool) : AggData → List Value → Option AggData
  | d, [] => some d
  | d, v :: vs => match feed L f distinct d v with
    | none => none
    | some d => run L f distinct d vs

end Agg
end Nebula
