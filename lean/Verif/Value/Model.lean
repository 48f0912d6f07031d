import Verif.Value.F64
import Verif.Date.Model
/-!
# Model of `nebula::Value` and of the graph types (src/common/datatypes): data and comparison

Simplifications.  `std::unordered_map<std::string, Value>` is the list of its entries in iteration
order (well-formed: keys distinct), `std::unordered_set<Value>` the list of its elements.  Equality
of two unordered sets is modelled as "same size and every element of the first is found in the
second by `==`"; the C++ lookup only searches the bucket of the hash.

The comparison functions are given twice: as polymorphic functions over the comparison of the
values (`Vertex.beq`, `Edge.lt`, ... — the transcription), and as the recursive functions
`Value.beq`, `Value.ltPair` that Lean accepts as structural recursion.  `Value.beq_eqn` and
`Value.lt_eqn` (Verif.Value.Lemmas) prove that the recursive functions satisfy the transcription.
-/
namespace Nebula

/-- Value.h:35-44 `enum class NullType`. -/
inductive NullType where
  | null | nan | badData | badType | errOverflow | unknownProp | divByZero | outOfRange
deriving DecidableEq, Repr

/-- The entries of an `unordered_map<std::string, Value>`. -/
abbrev Props (V : Type) := List (Bytes × V)

/-- Vertex.h:19-21 `struct Tag`. -/
structure Tag (V : Type) where
  name : Bytes
  props : List (Bytes × V)

/-- Vertex.h:67-69 `struct Vertex`. -/
structure Vertex (V : Type) where
  vid : V
  tags : List (Tag V)

/-- Edge.h:17-23 `struct Edge`. -/
structure Edge (V : Type) where
  src : V
  dst : V
  type : Int
  name : Bytes
  ranking : Int
  props : List (Bytes × V)

/-- Path.h:16-21 `struct Step`. -/
structure Step (V : Type) where
  dst : Vertex V
  type : Int
  name : Bytes
  ranking : Int
  props : List (Bytes × V)

/-- Path.h:115-117 `struct Path`. -/
structure Path (V : Type) where
  src : Vertex V
  steps : List (Step V)

/-- Value.h:47-440 `struct Value`: the tagged union. -/
inductive Value where
  | empty
  | null (n : NullType)
  | bool (b : Bool)
  | int (i : Int)
  | float (f : F64)
  | str (s : Bytes)
  | date (d : Date)
  | time (t : Time)
  | datetime (d : DateTime)
  | vertex (v : Vertex Value)
  | edge (e : Edge Value)
  | path (p : Path Value)
  | list (vs : List Value)
  | map (kvs : List (Bytes × Value))
  | set (vs : List Value)
  | dataset (cols : List Bytes) (rows : List (List Value))

/-! ## Standard containers -/

/-- `std::vector::operator==` (same size, equal elements). -/
def vecBeq {α : Type} (eq : α → α → Bool) : List α → List α → Bool
  | [], [] => true
  | a :: as, b :: bs => eq a b && vecBeq eq as bs
  | _, _ => false

/-- `std::vector::operator<`, i.e. `std::lexicographical_compare` with `<` of the elements. -/
def vecLt {α : Type} (lt : α → α → Bool) : List α → List α → Bool
  | _, [] => false
  | [], _ :: _ => true
  | a :: as, b :: bs => if lt a b then true else if lt b a then false else vecLt lt as bs

/-- `std::unordered_map::operator==`: same size and every entry of the first has an equal entry in
the second. -/
def mapBeq {V : Type} (eq : V → V → Bool) (a b : Props V) : Bool :=
  a.length == b.length && a.all fun kv => (b.lookup kv.1).any fun w => eq kv.2 w

/-- `std::unordered_set::operator==` (see the simplification above). -/
def setBeq {V : Type} (eq : V → V → Bool) (a b : List V) : Bool :=
  a.length == b.length && a.all fun x => b.any fun y => eq x y

/-! ## Comparison of the graph types, over the comparison of values -/

/-- Vertex.h:61-63 `Tag::operator==`. -/
def Tag.beq {V : Type} (eq : V → V → Bool) (a b : Tag V) : Bool :=
  a.name == b.name && mapBeq eq a.props b.props

/-- Vertex.h:95-97 `Vertex::operator==`. -/
def Vertex.beq {V : Type} (eq : V → V → Bool) (a b : Vertex V) : Bool :=
  eq a.vid b.vid && vecBeq (Tag.beq eq) a.tags b.tags

/-- Vertex.cpp:79-87 `Vertex::operator<`. -/
def Vertex.lt {V : Type} (eq lt : V → V → Bool) (a b : Vertex V) : Bool :=
  if !eq a.vid b.vid then lt a.vid b.vid
  else if a.tags.length ≠ b.tags.length then decide (a.tags.length < b.tags.length)
  else false

/-- Edge.cpp:71-79 `Edge::operator==`.  The negation of the smallest `int32_t` is undefined
behaviour in C++; here it is the mathematical negation. -/
def Edge.beq {V : Type} (eq : V → V → Bool) (a b : Edge V) : Bool :=
  if a.type ≠ b.type ∧ a.type ≠ -b.type then false
  else if a.type = b.type then
    eq a.src b.src && eq a.dst b.dst && a.ranking == b.ranking && mapBeq eq a.props b.props
  else eq a.src b.dst && eq a.dst b.src && a.ranking == b.ranking && mapBeq eq a.props b.props

/-- Edge.cpp:52-69 `Edge::operator<`. -/
def Edge.lt {V : Type} (eq lt : V → V → Bool) (a b : Edge V) : Bool :=
  if !eq a.src b.src then lt a.src b.src
  else if !eq a.dst b.dst then lt a.dst b.dst
  else if a.type ≠ b.type then decide (a.type < b.type)
  else if a.ranking ≠ b.ranking then decide (a.ranking < b.ranking)
  else if a.props.length ≠ b.props.length then decide (a.props.length < b.props.length)
  else false

/-- Path.h:89-95 `Step::operator==`. -/
def Step.beq {V : Type} (eq : V → V → Bool) (a b : Step V) : Bool :=
  Vertex.beq eq a.dst b.dst && a.type == b.type && a.name == b.name && a.ranking == b.ranking &&
  mapBeq eq a.props b.props

/-- Path.h:97-111 `Step::operator<`.  Line 101 compares `type` with `rhs.dst`: both are converted to
`Value`, an INT and a VERTEX, which are never equal, so the comparisons of lines 104-109 are never
reached. -/
def Step.lt {V : Type} (eq lt : V → V → Bool) (a b : Step V) : Bool :=
  if !Vertex.beq eq a.dst b.dst then Vertex.lt eq lt a.dst b.dst
  else decide (a.type < b.type)

/-- Path.h:163-166 `Path::operator==`. -/
def Path.beq {V : Type} (eq : V → V → Bool) (a b : Path V) : Bool :=
  Vertex.beq eq a.src b.src && vecBeq (Step.beq eq) a.steps b.steps

/-- Path.h:178-186 `Path::operator<`. -/
def Path.lt {V : Type} (eq lt : V → V → Bool) (a b : Path V) : Bool :=
  if !Vertex.beq eq a.src b.src then Vertex.lt eq lt a.src b.src
  else if !vecBeq (Step.beq eq) a.steps b.steps then vecLt (Step.lt eq lt) a.steps b.steps
  else false

namespace Value

/-- Value.h:63-80 `enum class Type`: the bit of each type. -/
def typeFlag : Value → Nat
  | .empty => 1
  | .bool _ => 2
  | .int _ => 4
  | .float _ => 8
  | .str _ => 16
  | .date _ => 32
  | .time _ => 64
  | .datetime _ => 128
  | .vertex _ => 256
  | .edge _ => 512
  | .path _ => 1024
  | .list _ => 2048
  | .map _ => 4096
  | .set _ => 8192
  | .dataset _ _ => 16384
  | .null _ => 9223372036854775808

/-- Value.cpp:2551-2556 (and 1768, 1778): `std::abs(a - b) < kEpsilon`. -/
def floatEq (a b : F64) : Bool := F64.lt (F64.abs (F64.sub a b)) F64.eps

mutual
/-- Value.cpp:2535-2617 `operator==`, as structural recursion (see `beq_eqn`). -/
def beq : Value → Value → Bool
  | .empty, .empty => true
  | .null _, .null _ => true
  | .bool a, .bool b => a == b
  | .int a, .int b => a == b
  | .int a, .float b => floatEq (F64.ofInt a) b
  | .float a, .int b => floatEq a (F64.ofInt b)
  | .float a, .float b => floatEq a b
  | .str a, .str b => a == b
  | .date a, .date b => Date.beq a b
  | .time a, .time b => Time.beq a b
  | .datetime a, .datetime b => DateTime.beq a b
  | .vertex a, .vertex b => beqVertex a b
  | .edge a, .edge b => beqEdge a b
  | .path a, .path b => beqPath a b
  | .list a, .list b => beqVec a b
  | .map a, .map b => a.length == b.length && beqMap a b
  | .set a, .set b => a.length == b.length && beqSet a b
  | .dataset c a, .dataset d b => c == d && beqRows a b
  | _, _ => false

/-- `Vertex.beq`. -/
def beqVertex : Vertex Value → Vertex Value → Bool
  | ⟨v, ts⟩, b => beq v b.vid && beqTags ts b.tags

/-- `Edge.beq`. -/
def beqEdge : Edge Value → Edge Value → Bool
  | ⟨s, d, t, _, r, p⟩, b =>
    if t ≠ b.type ∧ t ≠ -b.type then false
    else if t = b.type then
      beq s b.src && beq d b.dst && r == b.ranking && (p.length == b.props.length && beqMap p b.props)
    else beq s b.dst && beq d b.src && r == b.ranking && (p.length == b.props.length && beqMap p b.props)

/-- `Path.beq`. -/
def beqPath : Path Value → Path Value → Bool
  | ⟨v, s⟩, b => beqVertex v b.src && beqSteps s b.steps

/-- `vecBeq` on steps. -/
def beqSteps : List (Step Value) → List (Step Value) → Bool
  | [], [] => true
  | ⟨v, ty, n, r, p⟩ :: as, b :: bs =>
    (beqVertex v b.dst && ty == b.type && n == b.name && r == b.ranking &&
      (p.length == b.props.length && beqMap p b.props)) && beqSteps as bs
  | _, _ => false

/-- `vecBeq` on tags. -/
def beqTags : List (Tag Value) → List (Tag Value) → Bool
  | [], [] => true
  | ⟨n, p⟩ :: as, b :: bs =>
    (n == b.name && (p.length == b.props.length && beqMap p b.props)) && beqTags as bs
  | _, _ => false

/-- `vecBeq` on values. -/
def beqVec : List Value → List Value → Bool
  | [], [] => true
  | a :: as, b :: bs => beq a b && beqVec as bs
  | _, _ => false

/-- `vecBeq` on rows. -/
def beqRows : List (List Value) → List (List Value) → Bool
  | [], [] => true
  | a :: as, b :: bs => beqVec a b && beqRows as bs
  | _, _ => false

/-- the loop of `setBeq`. -/
def beqSet : List Value → List Value → Bool
  | [], _ => true
  | a :: as, b => b.any (fun x => beq a x) && beqSet as b

/-- the loop of `mapBeq`. -/
def beqMap : List (Bytes × Value) → List (Bytes × Value) → Bool
  | [], _ => true
  | (k, v) :: as, b => ((b.lookup k).any fun w => beq v w) && beqMap as b
end

mutual
/-- Value.cpp:2456-2533 `operator<` in both directions: `ltPair a b = (a < b, b < a)`
(see `lt_eqn`). -/
def ltPair : Value → Value → Bool × Bool
  | .bool a, .bool b => (!a && b, !b && a)
  | .int a, .int b => (decide (a < b), decide (b < a))
  | .int a, .float b => (F64.lt (F64.ofInt a) b, F64.lt b (F64.ofInt a))
  | .float a, .int b => (F64.lt a (F64.ofInt b), F64.lt (F64.ofInt b) a)
  | .float a, .float b => (F64.lt a b, F64.lt b a)
  | .str a, .str b => (bytesLt a b, bytesLt b a)
  | .date a, .date b => (Date.lt a b, Date.lt b a)
  | .time a, .time b => (Time.lt a b, Time.lt b a)
  | .datetime a, .datetime b => (DateTime.lt a b, DateTime.lt b a)
  | .vertex a, .vertex b => ltVertex a b
  | .edge a, .edge b => ltEdge a b
  | .path a, .path b => ltPath a b
  | .list a, .list b => ltVec a b
  | a, b => (decide (a.typeFlag < b.typeFlag), decide (b.typeFlag < a.typeFlag))

/-- `Vertex.lt` in both directions. -/
def ltVertex : Vertex Value → Vertex Value → Bool × Bool
  | ⟨v, ts⟩, b =>
    let p := ltPair v b.vid
    (if !beq v b.vid then p.1 else
       if ts.length ≠ b.tags.length then decide (ts.length < b.tags.length) else false,
     if !beq b.vid v then p.2 else
       if b.tags.length ≠ ts.length then decide (b.tags.length < ts.length) else false)

/-- `Edge.lt` in both directions. -/
def ltEdge : Edge Value → Edge Value → Bool × Bool
  | ⟨s, d, t, _, r, q⟩, b =>
    let ps := ltPair s b.src
    let pd := ltPair d b.dst
    (if !beq s b.src then ps.1 else if !beq d b.dst then pd.1
     else if t ≠ b.type then decide (t < b.type)
     else if r ≠ b.ranking then decide (r < b.ranking)
     else if q.length ≠ b.props.length then decide (q.length < b.props.length) else false,
     if !beq b.src s then ps.2 else if !beq b.dst d then pd.2
     else if b.type ≠ t then decide (b.type < t)
     else if b.ranking ≠ r then decide (b.ranking < r)
     else if b.props.length ≠ q.length then decide (b.props.length < q.length) else false)

/-- `Path.lt` in both directions. -/
def ltPath : Path Value → Path Value → Bool × Bool
  | ⟨v, s⟩, b =>
    let pv := ltVertex v b.src
    let ps := ltSteps s b.steps
    (if !beqVertex v b.src then pv.1 else if !beqSteps s b.steps then ps.1 else false,
     if !beqVertex b.src v then pv.2 else if !beqSteps b.steps s then ps.2 else false)

/-- `vecLt` on steps in both directions. -/
def ltSteps : List (Step Value) → List (Step Value) → Bool × Bool
  | [], [] => (false, false)
  | [], _ :: _ => (true, false)
  | _ :: _, [] => (false, true)
  | ⟨v, ty, _, _, _⟩ :: as, b :: bs =>
    let pv := ltVertex v b.dst
    let p := (if !beqVertex v b.dst then pv.1 else decide (ty < b.type),
              if !beqVertex b.dst v then pv.2 else decide (b.type < ty))
    let q := ltSteps as bs
    (if p.1 then true else if p.2 then false else q.1,
     if p.2 then true else if p.1 then false else q.2)

/-- `vecLt` on values in both directions. -/
def ltVec : List Value → List Value → Bool × Bool
  | [], [] => (false, false)
  | [], _ :: _ => (true, false)
  | _ :: _, [] => (false, true)
  | a :: as, b :: bs =>
    let p := ltPair a b
    let q := ltVec as bs
    (if p.1 then true else if p.2 then false else q.1,
     if p.2 then true else if p.1 then false else q.2)
end

/-- Value.cpp:2456-2533 `operator<`. -/
def lt (a b : Value) : Bool := (ltPair a b).1

/-- The values directly inside a value (nothing of the C++; used to state and prove properties of
nested values). -/
def children : Value → List Value
  | .vertex v => v.vid :: v.tags.flatMap fun t => t.props.map Prod.snd
  | .edge e => e.src :: e.dst :: e.props.map Prod.snd
  | .path p => (p.src.vid :: p.src.tags.flatMap fun t => t.props.map Prod.snd) ++
      p.steps.flatMap fun s => (s.dst.vid :: s.dst.tags.flatMap fun t => t.props.map Prod.snd) ++
        s.props.map Prod.snd
  | .list vs => vs
  | .map kvs => kvs.map Prod.snd
  | .set vs => vs
  | .dataset _ rows => rows.flatten
  | _ => []

end Value
end Nebula
