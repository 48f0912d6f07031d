import Verif.Value.Arith
/-!
# Model of hashing of values and of the operations on edges and paths

src/common/datatypes/{Value,Vertex,Edge,Path,Date,List}
-/
namespace Nebula

/-- The hash functions of libraries (`std::hash`, `folly::hash::fnv64`), arbitrary functions here, and
the texts of ids that are not scalars. -/
structure HashFns where
  hBool : Bool → UInt64
  hInt : Int → UInt64
  hF64 : F64 → UInt64
  hStr : Bytes → UInt64
  /-- `folly::hash::fnv64(str, hash)`; without the second argument the start value is `fnvStart` -/
  fnv : Bytes → UInt64 → UInt64
  fnvStart : UInt64
  /-- `fnv64_buf` of the 4 bytes of an `int32_t` -/
  fnvI32 : Int → UInt64 → UInt64
  /-- `fnv64_buf` of the 8 bytes of an `int64_t` -/
  fnvI64 : Int → UInt64 → UInt64
  hDate : Date → UInt64
  hTime : Time → UInt64
  hDateTime : DateTime → UInt64
  /-- `Value::toString` of floats and non-scalars -/
  text : Value → Bytes

namespace Value

/-- Value.cpp:1490-1507: the texts of the NULL kinds. -/
def nullText : NullType → Bytes
  | .null => ascii "NULL"
  | .badData => ascii "__NULL_BAD_DATA__"
  | .badType => ascii "__NULL_BAD_TYPE__"
  | .divByZero => ascii "__NULL_DIV_BY_ZERO__"
  | .errOverflow => ascii "__NULL_OVERFLOW__"
  | .nan => ascii "__NULL_NaN__"
  | .unknownProp => ascii "__NULL_UNKNOWN_PROP__"
  | .outOfRange => ascii "__NULL_OUT_OF_RANGE__"

/-- Value.cpp:1484-1556 `toString`; floats and non-scalars are left to `other`. -/
def toText (other : Value → Bytes) : Value → Bytes
  | .empty => ascii "__EMPTY__"
  | .null n => nullText n
  | .bool b => boolText b
  | .int i => intDec i
  | .str s => [34] ++ s ++ [34]
  | .date d => d.toText
  | .time t => t.toText
  | .datetime d => d.toText
  | v => other v

end Value

/-- The mixing step `hv += (hv << 1) + (hv << 4) + ...` of Vertex.cpp:102 and Path.cpp:98. -/
def mix (hv : UInt64) : UInt64 :=
  hv + ((hv <<< 1) + (hv <<< 4) + (hv <<< 5) + (hv <<< 7) + (hv <<< 8) + (hv <<< 40))

/-- Vertex.cpp:95-107 `hash<Tag>`, `hash<Vertex>`. -/
def Vertex.hash (H : HashFns) (v : Vertex Value) : UInt64 :=
  v.tags.foldl (fun hv t => mix hv ^^^ H.fnv t.name H.fnvStart) (H.fnv (v.vid.toText H.text) H.fnvStart)

/-- Edge.cpp:102-110 `hash<Edge>`. -/
def Edge.hash (H : HashFns) (e : Edge Value) : UInt64 :=
  let src := (if e.type > 0 then e.src else e.dst).toText H.text
  let dst := (if e.type > 0 then e.dst else e.src).toText H.text
  let type := if e.type > 0 then e.type else -e.type
  H.fnvI64 e.ranking (H.fnvI32 type (H.fnv dst (H.fnv src H.fnvStart)))

/-- Path.cpp:85-93 `hash<Step>`. -/
def Step.hash (H : HashFns) (s : Step Value) : UInt64 :=
  H.fnvI64 s.ranking (H.fnvI32 s.type (s.dst.hash H))

/-- Path.cpp:95-103 `hash<Path>`. -/
def Path.hash (H : HashFns) (p : Path Value) : UInt64 :=
  p.steps.foldl (fun hv s => mix hv ^^^ s.hash H) (p.src.hash H)

namespace Value
mutual
/-- Value.cpp:25-79 `hash<Value>`: `none` is the abort `LOG(FATAL)` for maps, sets and data sets. -/
def hash (H : HashFns) : Value → Option UInt64
  | .empty => some 0
  | .null _ => some 0xFFFFFFFFFFFFFFFF
  | .bool b => some (H.hBool b)
  | .int i => some (H.hInt i)
  | .float f => some (H.hF64 f)
  | .str s => some (H.hStr s)
  | .date d => some (H.hDate d)
  | .time t => some (H.hTime t)
  | .datetime d => some (H.hDateTime d)
  | .vertex v => some (v.hash H)
  | .edge e => some (e.hash H)
  | .path p => some (p.hash H)
  | .list vs => hashList H 0 vs
  | .map _ => none
  | .set _ => none
  | .dataset _ _ => none

/-- List.h:93-99: the loop of `hash<List>`. -/
def hashList (H : HashFns) (seed : UInt64) : List Value → Option UInt64
  | [] => some seed
  | v :: vs => match hash H v with
    | none => none
    | some h => hashList H (seed ^^^ (h + (0x9e3779b9 : UInt64) + (seed <<< 6) + (seed >>> 2))) vs
end
end Value

/-- Edge.cpp:81-85 `Edge::reverse`. -/
def Edge.reverse (e : Edge Value) : Edge Value := { e with type := -e.type, src := e.dst, dst := e.src }

/-- Edge.h:63-67 `Edge::format`. -/
def Edge.format (e : Edge Value) : Edge Value := if e.type < 0 then e.reverse else e

namespace Path

/-- The loop of Path.cpp:22-26: `swap(steps[i].dst, steps[i + 1].dst); steps[i].type = -steps[i].type`
for `i` from 0 to `size - 2`, then line 27. `carry` is the vertex that the previous swap left in the
current step. -/
def reverseLoop : Vertex Value → List (Step Value) → List (Step Value)
  | _, [] => []
  | carry, [s] => [{ s with dst := carry, type := -s.type }]
  | carry, s :: t :: rest => { s with dst := t.dst, type := -s.type } :: reverseLoop carry (t :: rest)

/-- Path.cpp:17-28 `Path::reverse`. -/
def reverse (p : Path Value) : Path Value :=
  match p.steps.reverse with
  | [] => p
  | s :: rest => ⟨s.dst, reverseLoop p.src (s :: rest)⟩

/-- Path.cpp:30-39 `Path::append`: `none` is undefined behaviour (`back()` of an empty vector). -/
def append (p q : Path Value) : Option (Path Value × Bool) :=
  if Vertex.beq Value.beq p.src q.src then some (⟨p.src, p.steps ++ q.steps⟩, true)
  else match p.steps.getLast? with
    | none => none
    | some s => if Vertex.beq Value.beq s.dst q.src then some (⟨p.src, p.steps ++ q.steps⟩, true)
      else some (p, false)

/-- `std::unordered_set::emplace`: whether the element was new.  Elements are found by `eq`
(correct as long as the hash is compatible with `eq`, see C11). -/
def emplace {α : Type} (eq : α → α → Bool) (seen : List α) (x : α) : List α × Bool :=
  if seen.any (eq x) then (seen, false) else (x :: seen, true)

/-- The loop of Path.cpp:47-53. -/
def dupVertexLoop (seen : List Value) : List (Step Value) → Bool
  | [] => false
  | s :: ss => match emplace Value.beq seen s.dst.vid with
    | (_, false) => true
    | (seen, true) => dupVertexLoop seen ss

/-- Path.cpp:41-55 `hasDuplicateVertices`. -/
def hasDuplicateVertices (p : Path Value) : Bool :=
  if p.steps = [] then false else dupVertexLoop [p.src.vid] p.steps

/-- The key of Path.cpp:61: (source, destination, type, ranking). -/
abbrev EdgeKey := Value × Value × Int × Int
/-- `operator==` of the tuple. -/
def EdgeKey.beq (a b : EdgeKey) : Bool :=
  Value.beq a.1 b.1 && Value.beq a.2.1 b.2.1 && a.2.2.1 == b.2.2.1 && a.2.2.2 == b.2.2.2

/-- Path.cpp:68-72: the key of a step. -/
def edgeKey (src : Value) (s : Step Value) : EdgeKey :=
  if s.type > 0 then (src, s.dst.vid, s.type, s.ranking) else (s.dst.vid, src, -s.type, s.ranking)

/-- The loop of Path.cpp:65-77. -/
def dupEdgeLoop (seen : List EdgeKey) (src : Value) : List (Step Value) → Bool
  | [] => false
  | s :: ss => match emplace EdgeKey.beq seen (edgeKey src s) with
    | (_, false) => true
    | (seen, true) => dupEdgeLoop seen s.dst.vid ss

/-- Path.cpp:57-79 `hasDuplicateEdges`. -/
def hasDuplicateEdges (p : Path Value) : Bool :=
  if p.steps.length < 2 then false else dupEdgeLoop [] p.src.vid p.steps

end Path
end Nebula
