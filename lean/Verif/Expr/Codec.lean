import Verif.Expr.Ast
import Verif.Wire.Ops
/-!
# Model of the expression codec (src/common/expression/Expression.cpp and the `writeTo`, `resetFrom`
functions of the other files)

Values inside an encoding are in the compact protocol (Verif.Wire).  Simplifications: the targets
are 64-bit little-endian (`sizeof(size_t) = 8`); running out of memory in `resize`/`reserve` is not
modelled (it ends the process like the failures do); `DCHECK`s are off as in release builds.
-/
namespace Nebula
namespace Expr

/-- Expression.h:23-111: the enumerators of `Kind`, in order. -/
def kinds : List Kind :=
  [.const, .bin .add, .bin .minus, .bin .multiply, .bin .division, .bin .mod,
   .un .plus, .un .negate, .un .not, .un .incr, .un .decr,
   .bin .eq, .bin .ne, .bin .lt, .bin .le, .bin .gt, .bin .ge, .bin .reg, .bin .inn, .bin .notIn,
   .bin .contains, .bin .notContains, .bin .startsWith, .bin .notStartsWith, .bin .endsWith, .bin .notEndsWith,
   .bin .subscript, .bin .attribute, .labelAttribute, .column,
   .logical .and, .logical .or, .logical .xor, .cast, .call,
   .prop .tag, .prop .edge, .prop .input, .prop .var, .prop .dst, .prop .src,
   .prop .edgeSrc, .prop .edgeType, .prop .edgeRank, .prop .edgeDst, .vertex, .edge,
   .uuid, .var, .versionedVar, .coll .list, .coll .set, .map, .label, .case, .predicate, .listComp, .reduce,
   .coll .pathBuild, .text .prefix, .text .wildcard, .text .regexp, .text .fuzzy, .aggregate,
   .un .isNull, .un .isNotNull, .un .isEmpty, .un .isNotEmpty, .range]

/-- The byte of a kind. -/
def kindNum (k : Kind) : Nat := kinds.idxOf k

/-! ## Encoder -/

/-- The eight bytes of a `size_t`, low byte first. -/
def le64 : Nat → Nat → Bytes
  | 0, _ => []
  | k + 1, n => UInt8.ofNat (n % 256) :: le64 k (n / 256)

/-- Expression.cpp:56-59 `Encoder::operator<<(Kind)`. -/
def putKind (k : Kind) : Bytes := [UInt8.ofNat (kindNum k)]

/-- Expression.cpp:78-81 `operator<<(size_t)`, 83-86 `operator<<(Value::Type)`. -/
def putSize (n : Nat) : Bytes := le64 8 n

/-- Expression.cpp:62-69 `operator<<(const std::string&)`. -/
def putStr (s : Bytes) : Bytes := putSize s.length ++ s

section
variable (bits : F64 → Nat)

/-- Expression.cpp:72-75 `operator<<(const Value&)`. -/
def putVal (v : Value) : Bytes := Wire.serialize bits v

mutual
/-- The functions `writeTo`.  Kinds that do not support it (`LOG(FATAL)`) write nothing here; see
`aborts`. -/
def writeTo : Expr → Bytes
  /- ConstantExpression.cpp:24-30 -/
  | const v => putKind .const ++ putVal bits v
  /- UnaryExpression.cpp:24-31 -/
  | unary o e => putKind (.un o) ++ writeTo e
  /- BinaryExpression.cpp:21-32 -/
  | binary o l r => putKind (.bin o) ++ writeTo l ++ writeTo r
  | labelAttribute _ _ => []
  /- ColumnExpression.cpp:36-39: `index_` is converted to `size_t` -/
  | column i => putKind .column ++ putSize (i % 2 ^ 64).toNat
  /- LogicalExpression.cpp:140-146 -/
  | logical o es => putKind (.logical o) ++ putSize es.length ++ writeAll es
  /- TypeCastingExpression.cpp:108-118 -/
  | cast t e => putKind .cast ++ putSize t ++ writeTo e
  /- FunctionCallExpression.cpp:38-56 -/
  | call n es => putKind .call ++ putStr n ++ putSize es.length ++ writeAll es
  /- PropertyExpression.cpp:23-35 -/
  | prop k r s p => putKind (.prop k) ++ putStr r ++ putStr s ++ putStr p
  /- VertexExpression.h:46-48 -/
  | vertex => putKind .vertex
  /- EdgeExpression.h -/
  | edge => putKind .edge
  /- UUIDExpression.cpp:23-30 -/
  | uuid f => putKind .uuid ++ putStr f
  /- VariableExpression.cpp:20-24 -/
  | var n _ => putKind .var ++ putStr n
  | versionedVar _ _ => []
  /- ContainerExpression.cpp:66-72, 138-144; PathBuildExpression.cpp:146-152 -/
  | coll k es => putKind (.coll k) ++ putSize es.length ++ writeAll es
  /- ContainerExpression.cpp:215-222 -/
  | map kvs => putKind .map ++ putSize kvs.length ++ writeEntries kvs
  /- LabelExpression.cpp:30-36 -/
  | label n => putKind .label ++ putStr n
  /- CaseExpression.cpp:118-134 -/
  | case g c d cs => putKind .case ++ putVal bits (.bool g) ++ putVal bits (.bool c.isSome) ++
      putVal bits (.bool d.isSome) ++ putSize cs.length ++ writeOpt c ++ writeOpt d ++ writeCases cs
  /- PredicateExpression.cpp:206-223 -/
  | predicate n i c f o => putKind .predicate ++ putVal bits (.bool !i.isEmpty) ++ putVal bits (.bool f.isSome) ++
      putVal bits (.bool !o.isEmpty) ++ putStr n ++ (if i.isEmpty then [] else putStr i) ++ writeTo c ++ writeOpt f ++
      (if o.isEmpty then [] else putStr o)
  /- ListComprehensionExpression.cpp:105-122 -/
  | listComp i c f m o => putKind .listComp ++ putVal bits (.bool f.isSome) ++ putVal bits (.bool m.isSome) ++
      putVal bits (.bool !o.isEmpty) ++ putStr i ++ writeTo c ++ writeOpt f ++ writeOpt m ++
      (if o.isEmpty then [] else putStr o)
  /- ReduceExpression.cpp:80-92 -/
  | reduce a i v c m o => putKind .reduce ++ putVal bits (.bool !o.isEmpty) ++ putStr a ++ writeTo i ++ putStr v ++
      writeTo c ++ writeTo m ++ (if o.isEmpty then [] else putStr o)
  | text _ _ => []
  /- AggregateExpression.cpp:20-27 -/
  | aggregate n d a => putKind .aggregate ++ putStr n ++ putVal bits (.bool d) ++ writeOpt a
  /- SubscriptExpression.cpp:226-238 -/
  | range l lo hi => putKind .range ++ writeTo l ++ putSize (if lo.isSome && hi.isSome then 2 else 1) ++
      writeBound 0 lo ++ writeBound 1 hi

/-- the loops over operands -/
def writeAll : List Expr → Bytes
  | [] => []
  | e :: es => writeTo e ++ writeAll es

/-- the loop over map items -/
def writeEntries : List (Bytes × Expr) → Bytes
  | [] => []
  | (k, e) :: es => (putStr k ++ writeTo e) ++ writeEntries es

/-- the loop over the branches -/
def writeCases : List (Expr × Expr) → Bytes
  | [] => []
  | (w, t) :: cs => (writeTo w ++ writeTo t) ++ writeCases cs

/-- a child that may be missing -/
def writeOpt : Option Expr → Bytes
  | none => []
  | some e => writeTo e

/-- a bound of a range -/
def writeBound (i : Nat) : Option Expr → Bytes
  | none => []
  | some e => putSize i ++ writeTo e
end
end

/-- The kinds whose `writeTo` is `LOG(FATAL)` (LabelAttributeExpression.h:88, VariableExpression.h:117,
TextSearchExpression.h:169), and an empty UUID field (UUIDExpression.cpp:28). -/
def abortsHere : Expr → Bool
  | labelAttribute _ _ => true
  | versionedVar _ _ => true
  | text _ _ => true
  | uuid f => f.isEmpty
  | _ => false

mutual
/-- Does writing meet one of them? -/
def aborts : Expr → Bool
  | labelAttribute _ _ => true
  | versionedVar _ _ => true
  | text _ _ => true
  | uuid f => f.isEmpty
  | unary _ e => aborts e
  | binary _ l r => aborts l || aborts r
  | logical _ es => abortsAll es
  | cast _ e => aborts e
  | call _ es => abortsAll es
  | coll _ es => abortsAll es
  | map kvs => abortsEntries kvs
  | case _ c d cs => abortsOpt c || abortsOpt d || abortsCases cs
  | predicate _ _ c f _ => aborts c || abortsOpt f
  | listComp _ c f m _ => aborts c || abortsOpt f || abortsOpt m
  | reduce _ i _ c m _ => aborts i || aborts c || aborts m
  | aggregate _ _ a => abortsOpt a
  | range l lo hi => aborts l || abortsOpt lo || abortsOpt hi
  | const _ => false
  | column _ => false
  | prop _ _ _ _ => false
  | vertex => false
  | edge => false
  | var _ _ => false
  | label _ => false
def abortsAll : List Expr → Bool
  | [] => false
  | e :: es => aborts e || abortsAll es
def abortsEntries : List (Bytes × Expr) → Bool
  | [] => false
  | (_, e) :: es => aborts e || abortsEntries es
def abortsCases : List (Expr × Expr) → Bool
  | [] => false
  | (w, t) :: cs => (aborts w || aborts t) || abortsCases cs
def abortsOpt : Option Expr → Bool
  | none => false
  | some e => aborts e
end

/-- Expression.cpp:184-188 `encode`; `none` if the process ends. -/
def encode (bits : F64 → Nat) (e : Expr) : Option Bytes := if aborts e then none else some (writeTo bits e)

/-! ## Decoder -/

/-- What a decoding step does: it returns and leaves the bytes not consumed, or ends the process
(`CHECK`, `LOG(FATAL)`, an exception that leaves a `noexcept` function), or reads `n` bytes past the
end of the input. -/
inductive Res (α : Type) where
  | ok (a : α) (rest : Bytes)
  | abort
  | oob (n : Nat)

/-- A decoding step. -/
def Dec (α : Type) : Type := Bytes → Res α

namespace Dec
def ret {α : Type} (a : α) : Dec α := fun bs => .ok a bs
def andThen {α β : Type} (d : Dec α) (k : α → Dec β) : Dec β := fun bs =>
  match d bs with
  | .ok a r => k a r
  | .abort => .abort
  | .oob n => .oob n
instance : Monad Dec where
  pure := ret
  bind := andThen
def fail {α : Type} : Dec α := fun _ => .abort
end Dec

/-- The number in bytes of which the first is the lowest. -/
def leVal : Bytes → Nat
  | [] => 0
  | b :: bs => b.toNat + 256 * leVal bs

/-- Expression.cpp:116-124 `readKind`; the result is the byte. -/
def readKind : Dec Nat
  | [] => .abort
  | b :: bs => .ok b.toNat bs

/-- Expression.cpp:153-158 `readSize`, 161-166 `readValueType`: copies eight bytes, unchecked. -/
def readSize : Dec Nat := fun bs =>
  if 8 ≤ bs.length then .ok (leVal (bs.take 8)) (bs.drop 8) else .oob (8 - bs.length)

/-- Expression.cpp:127-142 `readStr`.  A size for which `ptr_ + sz` wraps around is taken to fail the
check (if it did not, the string constructor would throw). -/
def readStr : Dec Bytes := fun bs =>
  if bs.length < 8 then .abort
  else
    let sz := leVal (bs.take 8)
    let r := bs.drop 8
    if sz ≤ r.length then .ok (r.take sz) (r.drop sz) else .abort

/-- Expression.cpp:145-150 `readValue`. -/
def readVal : Dec Value := fun bs =>
  match Wire.deserialize bs with
  | none => .abort
  | some (v, r) => .ok v r

/-- `readValue().getBool()` (Value.cpp:465 checks the type). -/
def readBool : Dec Bool := do
  match ← readVal with
  | .bool b => return b
  | _ => Dec.fail

/-- Repeating a step. -/
def readMany {α : Type} (d : Dec α) : Nat → Dec (List α)
  | 0 => return []
  | n + 1 => do
    let a ← d
    let as ← readMany d n
    return a :: as

/-- The loops `for (auto i = 0u; i < size; i++)`: the counter has 32 bits, so for a larger size the
loop only ends by a failure of a step, at the latest when the input is used up. -/
def readMany32 {α : Type} (d : Dec α) (size : Nat) : Dec (List α) := fun bs =>
  readMany d (if size < 2 ^ 32 then size else bs.length + 1) bs

/-- A child that is read if the flag says so. -/
def readOpt {α : Type} (d : Dec α) (b : Bool) : Dec (Option α) := if b then do return some (← d) else return none

/-- A string that is read if the flag says so. -/
def readOptStr (b : Bool) : Dec Bytes := if b then readStr else return []

/-- Simplification: the `reserve(size)` and `resize(size)` before the loops (e.g. ContainerExpression.cpp:77,
LogicalExpression.cpp:150) are taken to succeed; where they throw the process ends, and the model goes on
until an operand is missing.
The functions `resetFrom` after the `switch` of Expression.cpp:200-537; `d` is `readExpression`. -/
def resetFrom (d : Dec Expr) : Kind → Dec Expr
  /- ConstantExpression.cpp:33-36 -/
  | .const => do return const (← readVal)
  /- UnaryExpression.cpp:34-38 -/
  | .un o => do return unary o (← d)
  /- BinaryExpression.cpp:34-41 -/
  | .bin o => do
    let l ← d
    let r ← d
    return binary o l r
  /- LabelAttributeExpression.h:92 -/
  | .labelAttribute => Dec.fail
  /- ColumnExpression.cpp:41-43: `getInt` checks the type; stored as `int32_t` -/
  | .column => do
    match ← readVal with
    | .int i => return column (wrapI32 i)
    | _ => Dec.fail
  /- LogicalExpression.cpp:148-154 -/
  | .logical o => do
    let n ← readSize
    return logical o (← readMany32 d n)
  /- TypeCastingExpression.cpp:121-128 -/
  | .cast => do
    let t ← readSize
    return cast t (← d)
  /- FunctionCallExpression.cpp:60-74 -/
  | .call => do
    let n ← readStr
    let k ← readSize
    return call n (← readMany d k)
  | .prop k =>
    /- Expression.cpp:411-418 -/
    if k = .input ∨ k = .var then Dec.fail
    /- PropertyExpression.cpp:38-47 -/
    else do
      let r ← readStr
      let s ← readStr
      return prop k r s (← readStr)
  | .vertex => return vertex
  | .edge => return edge
  /- UUIDExpression.cpp:33-36 -/
  | .uuid => do return uuid (← readStr)
  /- VariableExpression.cpp:26-29 -/
  | .var => do return var (← readStr) true
  /- Expression.cpp:474-477 -/
  | .versionedVar => Dec.fail
  /- ContainerExpression.cpp:75-81, 147-153; PathBuildExpression.cpp:154-161 -/
  | .coll k => do
    let n ← readSize
    return coll k (← readMany32 d n)
  /- ContainerExpression.cpp:225-233 -/
  | .map => do
    let n ← readSize
    return map (← readMany32 (do
      let k ← readStr
      return (k, ← d)) n)
  /- LabelExpression.cpp:39-42 -/
  | .label => do return label (← readStr)
  /- CaseExpression.cpp:136-159 -/
  | .case => do
    let g ← readBool
    let hc ← readBool
    let hd ← readBool
    let n ← readSize
    let c ← readOpt d hc
    let df ← readOpt d hd
    return case g c df (← readMany32 (do
      let w ← d
      return (w, ← d)) n)
  /- PredicateExpression.cpp:225-241 -/
  | .predicate => do
    let hi ← readBool
    let hf ← readBool
    let ho ← readBool
    let n ← readStr
    let i ← readOptStr hi
    let c ← d
    let f ← readOpt d hf
    return predicate n i c f (← readOptStr ho)
  /- ListComprehensionExpression.cpp:124-140 -/
  | .listComp => do
    let hf ← readBool
    let hm ← readBool
    let ho ← readBool
    let i ← readStr
    let c ← d
    let f ← readOpt d hf
    let m ← readOpt d hm
    return listComp i c f m (← readOptStr ho)
  /- ReduceExpression.cpp:94-105 -/
  | .reduce => do
    let ho ← readBool
    let a ← readStr
    let i ← d
    let v ← readStr
    let c ← d
    let m ← d
    return reduce a i v c m (← readOptStr ho)
  /- Expression.cpp:518-523 -/
  | .text _ => Dec.fail
  /- AggregateExpression.cpp:29-37 -/
  | .aggregate => do
    let n ← readStr
    let di ← readBool
    return aggregate n di (some (← d))
  /- SubscriptExpression.cpp:240-256 -/
  | .range => do
    let l ← d
    let size ← readSize
    let index ← readSize
    if index = 1 then
      return range l none (some (← d))
    else
      let lo ← readOpt d (index = 0)
      if size = 2 then
        let _ ← readSize
        return range l lo (some (← d))
      else return range l lo none

/-- Expression.cpp:200-537 `decode(pool, decoder)`.  Every level of nesting consumes the byte of its
kind, so that with a first argument not below the number of bytes left, running out of it means that
there is no byte left. -/
def decodeF : Nat → Dec Expr
  | 0 => Dec.fail
  | f + 1 => do
    let k ← readKind
    match kinds[k]? with
    | none => Dec.fail
    | some k => resetFrom (decodeF f) k

/-- Expression.cpp:190-197 `decode(pool, encoded)`: `none` is the null pointer; the rest of the input is
ignored. -/
def decode (bs : Bytes) : Res (Option Expr) :=
  if bs.isEmpty then .ok none []
  else match decodeF bs.length bs with
    | .ok e r => .ok (some e) r
    | .abort => .abort
    | .oob n => .oob n

end Expr
end Nebula
