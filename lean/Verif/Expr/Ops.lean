import Verif.Value.Graph
/-!
# Model of the operators of the expressions on the values of their operands
(src/common/expression/*.cpp, the `eval` functions)

`none` is an abort (`CHECK`, `LOG(FATAL)`) or undefined behaviour.
-/
namespace Nebula
namespace Ops
open Value

/-- Base.h:139-144. -/
def kVid : Bytes := ascii "_vid"
def kSrc : Bytes := ascii "_src"
def kType : Bytes := ascii "_type"
def kRank : Bytes := ascii "_rank"
def kDst : Bytes := ascii "_dst"

/-- Value.cpp:86-94. -/
def kNullBadData : Value := .null .badData
def kNullOutOfRange : Value := .null .outOfRange
def kNullUnknownProp : Value := .null .unknownProp

/-! ## Relational operators -/

/-- RelationalExpression.cpp:19-36. -/
def eq (l r : Value) : Value := l.equal r
def ne (l r : Value) : Value := (l.equal r).not
def lt (l r : Value) : Value := l.lessThan r
def le (l r : Value) : Value := (l.lessThan r).or (l.equal r)
def gt (l r : Value) : Value := (l.lessThan r).not.and (l.equal r).not
def ge (l r : Value) : Value := (l.lessThan r).not.or (l.equal r)

/-- RelationalExpression.cpp:37-54 and the same tests of 140-209: `f` if both operands are strings. -/
def onStrings (l r : Value) (f : Bytes → Bytes → Value) : Value :=
  if l.isBadNull || r.isBadNull then kNullBadType
  else match l, r with
    | .str a, .str b => f a b
    | .null _, .null _ => kNull
    | .null _, .str _ => kNull
    | .str _, .null _ => kNull
    | _, _ => kNullBadType

/-- RelationalExpression.cpp:37-54 REG.  `regex pattern text` is `std::regex_match` with
`std::regex(pattern)`, `none` an exception. -/
def reg (regex : Bytes → Bytes → Option Bool) (l r : Value) : Value :=
  onStrings l r fun a b => match regex b a with
    | some x => .bool x
    | none => kNullBadType

/-- List.h:73-75, Set.h `contains` (see Verif.Value.Model for the simplification of hashing). -/
def listContains (l : List Value) (v : Value) : Bool := l.any fun x => Value.beq x v

/-- Map.h:52-57 `contains`. -/
def mapContains (m : List (Bytes × Value)) : Value → Bool
  | .str k => (m.lookup k).isSome
  | _ => false

/-- RelationalExpression.cpp:59-84, 95-120: `found` is the result of `contains(lhs)`, `nul` of
`contains(kNullValue)`; `neg` is NOT IN. -/
def member (neg found nul : Bool) : Value :=
  if !found && nul then kNull else .bool (if neg then !found else found)

/-- RelationalExpression.cpp:55-90 IN and 91-126 NOT IN. -/
def isIn (neg : Bool) (l r : Value) : Value :=
  let res := match r with
    | .null .null => kNull
    | .list vs => member neg (listContains vs l) (listContains vs kNull)
    | .set vs => member neg (listContains vs l) (listContains vs kNull)
    | .map m => member neg (mapContains m l) (mapContains m kNull)
    | _ => kNullBadType
  if !res.isBadNull && l.isNull then kNull else res

/-- `s.find(t, i)`: the first position at or after `i` at which `t` occurs, `none` for `npos`. -/
def findSub (t : Bytes) : Bytes → Nat → Option Nat
  | [], i => if t = [] then some i else none
  | c :: s, i => if t.isPrefixOf (c :: s) then some i else findSub t s (i + 1)

/-- RelationalExpression.cpp:127-152 CONTAINS, NOT CONTAINS. -/
def contains (neg : Bool) (l r : Value) : Value :=
  onStrings l r fun a b =>
    let x := decide (b.length ≤ a.length) && (findSub b a 0).isSome
    .bool (if neg then !x else x)

/-- RelationalExpression.cpp:153-178 STARTS WITH, NOT STARTS WITH. -/
def startsWith (neg : Bool) (l r : Value) : Value :=
  onStrings l r fun a b =>
    let x := decide (b.length ≤ a.length) && findSub b a 0 == some 0
    .bool (if neg then !x else x)

/-- RelationalExpression.cpp:179-209 ENDS WITH, NOT ENDS WITH: `compare` of the last characters. -/
def endsWith (neg : Bool) (l r : Value) : Value :=
  onStrings l r fun a b =>
    let x := decide (b.length ≤ a.length) && (a.drop (a.length - b.length)).take b.length == b
    .bool (if neg then !x else x)

/-! ## Attributes and subscripts -/

/-- The loop over the tags of a vertex (AttributeExpression.cpp:30-35): the first tag with the
property. -/
def findTag (k : Bytes) : List (Tag Value) → Option Value
  | [] => none
  | t :: ts => match t.props.lookup k with
    | some v => some v
    | none => findTag k ts

/-- AttributeExpression.cpp:40-49: the built-in properties of an edge. -/
def edgeBuiltin (e : Edge Value) (k : Bytes) : Option Value :=
  if k = kSrc then some e.src
  else if k = kDst then some e.dst
  else if k = kRank then some (.int e.ranking)
  else if k = kType then some (.str e.name)
  else none

/-- `rvalue.getStr()[0] == '_'` (the terminating zero of an empty string is not '_'). -/
def underscore (k : Bytes) : Bool := k.head? == some 95

/-- TimeUtils.h:161-172 `getDateAttr`. -/
def dateAttr (d : Date) (k : Bytes) : Value :=
  let k := k.map toLower
  if k = ascii "year" then .int d.year
  else if k = ascii "month" then .int d.month
  else if k = ascii "day" then .int d.day
  else kNullUnknownProp
/-- TimeUtils.h:217-230 `getTimeAttr`. -/
def timeAttr (t : Time) (k : Bytes) : Value :=
  let k := k.map toLower
  if k = ascii "hour" then .int t.hour
  else if k = ascii "minute" then .int t.minute
  else if k = ascii "second" then .int t.sec
  else if k = ascii "microsecond" then .int t.microsec
  else kNullUnknownProp
/-- TimeUtils.h:103-122 `getDateTimeAttr`. -/
def dateTimeAttr (d : DateTime) (k : Bytes) : Value :=
  let k := k.map toLower
  if k = ascii "year" then .int d.year
  else if k = ascii "month" then .int d.month
  else if k = ascii "day" then .int d.day
  else if k = ascii "hour" then .int d.hour
  else if k = ascii "minute" then .int d.minute
  else if k = ascii "second" then .int d.sec
  else if k = ascii "microsecond" then .int d.microsec
  else kNullUnknownProp

/-- AttributeExpression.cpp:16-70 `eval` on the operands.  `stale` is the content of `result_` before
the call; the second component is its content afterwards.  `getStr` aborts on a value that is not a
string. -/
def attr (stale : Value) (l r : Value) : Option (Value × Value) :=
  match l, r with
  | .map m, .str k => some ((m.lookup k).getD kNullUnknownProp, stale)
  | .vertex v, .str k =>
    if k = kVid then some (v.vid, v.vid)
    else some ((findTag k v.tags).getD kNullUnknownProp, stale)
  | .edge e, .str k =>
    if underscore k then
      match edgeBuiltin e k with
      | some v => some (v, v)
      | none => some (stale, stale)
    else some ((e.props.lookup k).getD kNullUnknownProp, stale)
  | .date d, .str k => some (dateAttr d k, dateAttr d k)
  | .time d, .str k => some (timeAttr d k, timeAttr d k)
  | .datetime d, .str k => some (dateTimeAttr d k, dateTimeAttr d k)
  | .map _, _ | .vertex _, _ | .edge _, _ | .date _, _ | .time _, _ | .datetime _, _ => none
  | _, _ => some (kNullBadType, stale)

/-- SubscriptExpression.cpp:15-103 `eval` on the operands. -/
def subscript (l r : Value) : Value :=
  match l with
  | .list vs => match r with
    | .int i =>
      if i ≥ vs.length ∨ i < -(vs.length : Int) then kNullOutOfRange
      else vs.getD (if i < 0 then i + vs.length else i).toNat .empty
    | _ => kNullBadType
  | .map m => match r with
    | .str k => (m.lookup k).getD kNullUnknownProp
    | _ => kNull
  | .dataset _ rows => match r with
    | .int i =>
      if i ≥ rows.length ∨ i < 0 then kNullOutOfRange
      else .list (rows.getD i.toNat [])
    | _ => kNullBadType
  | .vertex v => match r with
    | .str k => if k = kVid then v.vid else (findTag k v.tags).getD kNull
    | _ => kNull
  | .edge e => match r with
    | .str k =>
      if underscore k then (edgeBuiltin e k).getD kNull
      else (e.props.lookup k).getD kNull
    | _ => kNull
  | _ => kNullBadType

/-- SubscriptExpression.cpp:129-147, 149-165: a bound; `Sum.inl` is the result if it ends the
evaluation.  `lo += size` cannot overflow. -/
def bound (size : Nat) : Value → Value ⊕ Int
  | .null _ => .inl kNull
  | .int i => .inr (if i < 0 then i + size else i)
  | _ => .inl kNullBadType

/-- SubscriptExpression.cpp:168-187: the slice. -/
def slice (vs : List Value) (lo hi : Int) : Value :=
  let lo := if lo < 0 then 0 else lo
  if lo ≥ hi then .list []
  else if lo.toNat ≥ vs.length then .list []
  else
    let hi := if hi.toNat ≥ vs.length then (vs.length : Int) else hi
    .list ((vs.drop lo.toNat).take (hi.toNat - lo.toNat))

/-! ## Casting -/

/-- TypeCastingExpression.cpp:13-48 `typeCastMap`, as pairs of the type flags of Value.h:63-80
(operand type, target type). -/
def castTable : List (Nat × Nat) :=
  [(4, 4), (8, 4), (16, 4), (1, 4),
   (16, 16), (1, 16), (9223372036854775808, 16), (2, 16), (4, 16), (8, 16), (32, 16), (128, 16), (4096, 16),
   (1024, 16), (2048, 16), (8192, 16), (16384, 16), (256, 16), (512, 16),
   (2, 2), (1, 2), (9223372036854775808, 2), (4, 2), (8, 2), (16, 2), (32, 2),
   (8, 8), (4, 8), (16, 8), (1, 8)]

/-- TypeCastingExpression.cpp:51-62 `validateTypeCast`. -/
def validateTypeCast (operandType type : Nat) : Bool := castTable.any fun p => p.1 == operandType && p.2 == type

/-- TypeCastingExpression.cpp:64-95 `eval` on the operand.  `text` is `Value::toString` of floats and
of the composite types. -/
def cast (strtod : StrToD) (text : Value → Bytes) (ty : Nat) (v : Value) : Option Value :=
  if ty = 2 then some v.toBool
  else if ty = 4 then v.toInt strtod
  else if ty = 8 then some (v.toFloat strtod)
  else if ty = 16 then
    match v with
    | .str s => some (.str s)
    | v => some (.str (v.toText text))
  else some kNull

/-! ## Building a path -/

/-- PathBuildExpression.cpp:72-86 `getVertex`. -/
def getVertex : Value → Option (Vertex Value)
  | .str s => some ⟨.str s, []⟩
  | .int i => some ⟨.int i, []⟩
  | .vertex v => some v
  | .path p => some p.src
  | _ => none

/-- PathBuildExpression.cpp:88-100 `getEdge` into a new `Step`. -/
def edgeStep (e : Edge Value) : Step Value := ⟨⟨e.dst, []⟩, e.type, e.name, e.ranking, e.props⟩

/-- `path.steps.back().dst = v` on a non-empty vector. -/
def setLastDst (ss : List (Step Value)) (v : Vertex Value) : List (Step Value) :=
  match ss with
  | [] => []
  | [s] => [{ s with dst := v }]
  | s :: ss => s :: setLastDst ss v

/-- PathBuildExpression.cpp:28-56: one item after the first; `none` is `kNullBadData`. -/
def pathItem (i : Nat) (p : Path Value) (v : Value) : Option (Path Value) :=
  match v with
  | .edge e =>
    match p.steps.getLast? with
    | some last => if Value.beq last.dst.vid e.src then some { p with steps := p.steps ++ [edgeStep e] } else none
    | none => some { p with steps := p.steps ++ [edgeStep e] }
  | .vertex w =>
    match p.steps.getLast? with
    | some last => if Value.beq last.dst.vid w.vid then some { p with steps := setLastDst p.steps w } else none
    | none => none
  | .path q =>
    match p.steps.getLast? with
    | some last =>
      if Value.beq last.dst.vid q.src.vid then some { p with steps := setLastDst p.steps q.src ++ q.steps } else none
    | none => some { p with steps := p.steps ++ q.steps }
  | v =>
    if i % 2 = 1 ∨ p.steps = [] then none
    else match getVertex v with
      | some w => some { p with steps := setLastDst p.steps w }
      | none => none

/-! ## Existence of a property -/

/-- Vertex.cpp:41-49 `Vertex::value`, Edge.cpp:43-50 `Edge::value`, PredicateExpression.cpp:19-54
`evalExists` on the operands of the attribute expression. -/
def exists? (c k : Value) : Value :=
  match k with
  | .str k => match c with
    | .vertex v => .bool (!((findTag k v.tags).getD kNull).isNull)
    | .edge e => .bool (!((e.props.lookup k).getD kNull).isNull)
    | .map m => .bool (!((m.lookup k).getD kNullUnknownProp).isNull)
    | .null _ => kNull
    | _ => kNullBadType
  | _ => kNullBadType

end Ops
end Nebula
