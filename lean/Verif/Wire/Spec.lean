import Verif.Wire.Compact
import Verif.Value.Lemmas
/-!
# Specification for the serialisation of values

`Fits`: the value is one the C++ types can hold and the protocol's 31-bit sizes can express.
`wireImage`: what the other side is documented to receive (EdgeOps.inl:71 "the type is replaced by
its direction"): the same value, except that the type of an edge or step is replaced by its sign,
and that a set holds each value once.
-/
namespace Nebula
namespace Wire

/-- A size expressible on the wire. -/
def Small (n : Nat) : Prop := n < 2 ^ 31

/-- A property map: distinct keys, sizes expressible. -/
def PropsFit {V : Type} (m : Props V) : Prop :=
  Small m.length ∧ (∀ kv ∈ m, Small kv.1.length) ∧ (m.map Prod.fst).Nodup

def TagFit {V : Type} (t : Tag V) : Prop := Small t.name.length ∧ PropsFit t.props
def VertexFit {V : Type} (v : Vertex V) : Prop := Small v.tags.length ∧ ∀ t ∈ v.tags, TagFit t
def EdgeFit {V : Type} (e : Edge V) : Prop :=
  (-2147483648 ≤ e.type ∧ e.type ≤ 2147483647) ∧ InI64 e.ranking ∧ Small e.name.length ∧ PropsFit e.props
def StepFit {V : Type} (e : Step V) : Prop :=
  VertexFit e.dst ∧ (-2147483648 ≤ e.type ∧ e.type ≤ 2147483647) ∧ InI64 e.ranking ∧ Small e.name.length ∧
  PropsFit e.props
def PathFit {V : Type} (p : Path V) : Prop := VertexFit p.src ∧ Small p.steps.length ∧ ∀ s ∈ p.steps, StepFit s

/-- The components (without the nested values) are in the range of their C++ types. -/
def FitsHere : Value → Prop
  | .int i => InI64 i
  | .float f => F64.Holds f
  | .str s => Small s.length
  | .date d => (-32768 ≤ d.year ∧ d.year ≤ 32767) ∧ (-128 ≤ d.month ∧ d.month ≤ 127) ∧ (-128 ≤ d.day ∧ d.day ≤ 127)
  | .time t => (-128 ≤ t.hour ∧ t.hour ≤ 127) ∧ (-128 ≤ t.minute ∧ t.minute ≤ 127) ∧ (-128 ≤ t.sec ∧ t.sec ≤ 127) ∧
      (-2147483648 ≤ t.microsec ∧ t.microsec ≤ 2147483647)
  | .datetime d => (-32768 ≤ d.year ∧ d.year ≤ 32767) ∧ (0 ≤ d.month ∧ d.month < 16) ∧ (0 ≤ d.day ∧ d.day < 32) ∧
      (0 ≤ d.hour ∧ d.hour < 32) ∧ (0 ≤ d.minute ∧ d.minute < 64) ∧ (0 ≤ d.sec ∧ d.sec < 64) ∧
      (0 ≤ d.microsec ∧ d.microsec < 4194304)
  | .vertex v => VertexFit v
  | .edge e => EdgeFit e
  | .path p => PathFit p
  | .list l => Small l.length
  | .map m => PropsFit m
  | .set l => Small l.length
  | .dataset c r => (Small c.length ∧ ∀ s ∈ c, Small s.length) ∧ Small r.length ∧ ∀ x ∈ r, Small x.length
  | _ => True

/-- The value and every value inside it fits. -/
def Fits (v : Value) : Prop := Value.Hered FitsHere v

/-- The direction of an edge type. -/
def dir (t : Int) : Int := if t > 0 then 1 else if t < 0 then -1 else 0

/-- Each value once: the first of the equal ones. -/
def once (l : List Value) : List Value :=
  l.foldl (fun s v => if s.any fun x => Value.beq x v then s else s ++ [v]) []

mutual
/-- What arrives. -/
def wireImage : Value → Value
  | .vertex v => .vertex (imgVertex v)
  | .edge ⟨s, d, t, n, r, p⟩ => .edge ⟨wireImage s, wireImage d, dir t, n, r, imgProps p⟩
  | .path ⟨v, ss⟩ => .path ⟨imgVertex v, imgSteps ss⟩
  | .list l => .list (imgVec l)
  | .map m => .map (imgProps m)
  | .set l => .set (once (imgVec l))
  | .dataset c r => .dataset c (imgRows r)
  | .empty => .empty
  | .null n => .null n
  | .bool b => .bool b
  | .int i => .int i
  | .float f => .float f
  | .str s => .str s
  | .date d => .date d
  | .time t => .time t
  | .datetime d => .datetime d
def imgVertex : Vertex Value → Vertex Value
  | ⟨v, ts⟩ => ⟨wireImage v, imgTags ts⟩
def imgTags : List (Tag Value) → List (Tag Value)
  | [] => []
  | ⟨n, p⟩ :: ts => ⟨n, imgProps p⟩ :: imgTags ts
def imgSteps : List (Step Value) → List (Step Value)
  | [] => []
  | ⟨v, t, n, r, p⟩ :: ss => ⟨imgVertex v, dir t, n, r, imgProps p⟩ :: imgSteps ss
def imgProps : List (Bytes × Value) → List (Bytes × Value)
  | [] => []
  | (k, v) :: ps => (k, wireImage v) :: imgProps ps
def imgVec : List Value → List Value
  | [] => []
  | v :: vs => wireImage v :: imgVec vs
def imgRows : List (List Value) → List (List Value)
  | [] => []
  | r :: rs => imgVec r :: imgRows rs
end

/-- A value with nothing the wire changes: edge and step types are -1, 0 or 1, and no set holds two
values that are `==` (an invariant of `unordered_set`, whose hash agrees with `==`). -/
def PlainHere : Value → Prop
  | .edge e => -1 ≤ e.type ∧ e.type ≤ 1
  | .path p => ∀ s ∈ p.steps, -1 ≤ s.type ∧ s.type ≤ 1
  | .set l => l.Pairwise fun x y => Value.beq x y = false
  | _ => True
def Plain (v : Value) : Prop := Value.Hered PlainHere v

/-! ## Data a newer peer may send -/

/-- Any datum of the protocol.  Containers carry the type of their elements. -/
inductive Datum where
  | bool (b : Bool)
  | byte (x : Int)
  | i16 (x : Int)
  | i32 (x : Int)
  | i64 (x : Int)
  | double (bits : Nat)
  | binary (s : Bytes)
  | list (et : Nat) (l : List Datum)
  | set (et : Nat) (l : List Datum)
  | map (kt vt : Nat) (l : List (Datum × Datum))
  | struct (fields : List (Nat × Datum))

/-- Its type in the header of a field. -/
def Datum.ct : Datum → Nat
  | .bool true => ctTrue | .bool false => ctFalse
  | .byte _ => ctByte | .i16 _ => ctI16 | .i32 _ => ctI32 | .i64 _ => ctI64 | .double _ => ctDouble
  | .binary _ => ctBinary | .list _ _ => ctList | .set _ _ => ctSet | .map _ _ _ => ctMap | .struct _ => ctStruct

/-- Its type as an element of a container. -/
def Datum.et : Datum → Nat
  | .bool _ => ctTrue
  | d => d.ct

def Datum.isBool : Datum → Bool
  | .bool _ => true
  | _ => false

mutual
/-- Its bytes after a field header (a Boolean is in the header). -/
def Datum.enc : Datum → Bytes
  | .bool _ => []
  | .byte x => writeByte x
  | .i16 x => writeInt x
  | .i32 x => writeInt x
  | .i64 x => writeInt x
  | .double n => writeDouble n
  | .binary s => writeBinary s
  | .list et l => listHeader l.length et ++ encL l
  | .set et l => listHeader l.length et ++ encL l
  | .map kt vt l => mapHeader l.length kt vt ++ encM l
  | .struct fs => encF 0 fs ++ [0]
/-- elements: a Boolean is one byte -/
def encL : List Datum → Bytes
  | [] => []
  | d :: l => (if d.isBool then [UInt8.ofNat d.ct] else d.enc) ++ encL l
def encM : List (Datum × Datum) → Bytes
  | [] => []
  | (k, v) :: l => ((if k.isBool then [UInt8.ofNat k.ct] else k.enc) ++ (if v.isBool then [UInt8.ofNat v.ct] else v.enc)) ++ encM l
/-- fields, after a field with number `last` -/
def encF (last : Nat) : List (Nat × Datum) → Bytes
  | [] => []
  | (id, d) :: fs => fieldHeader last id d.ct ++ (d.enc ++ encF id fs)
end

mutual
/-- Numbers in range, sizes expressible, containers homogeneous. -/
def Datum.WF : Datum → Prop
  | .bool _ => True
  | .byte x => -128 ≤ x ∧ x ≤ 127
  | .i16 x => -32768 ≤ x ∧ x ≤ 32767
  | .i32 x => -2147483648 ≤ x ∧ x ≤ 2147483647
  | .i64 x => InI64 x
  | .double n => n < 2 ^ 64
  | .binary s => Small s.length
  | .list et l => et < 16 ∧ Small l.length ∧ wfL et l
  | .set et l => et < 16 ∧ Small l.length ∧ wfL et l
  | .map kt vt l => kt < 16 ∧ vt < 16 ∧ Small l.length ∧ wfM kt vt l
  | .struct fs => wfF fs
def wfL (et : Nat) : List Datum → Prop
  | [] => True
  | d :: l => (d.et = et ∧ d.WF) ∧ wfL et l
def wfM (kt vt : Nat) : List (Datum × Datum) → Prop
  | [] => True
  | (k, v) :: l => ((k.et = kt ∧ k.WF) ∧ (v.et = vt ∧ v.WF)) ∧ wfM kt vt l
def wfF : List (Nat × Datum) → Prop
  | [] => True
  | (id, d) :: fs => (id ≤ 32767 ∧ d.WF) ∧ wfF fs
end

end Wire
end Nebula
