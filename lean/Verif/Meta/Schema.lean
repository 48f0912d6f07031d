import Verif.Text
import Verif.Map
/-!
# Schemas: src/common/meta/NebulaSchemaProvider.cpp

`size_t` is modelled by natural numbers (records below 2^64 bytes).  `E` is the type of default value expressions.
`none` stands for a failed `CHECK` or `LOG(FATAL)`: the process aborts.
-/
namespace Nebula
namespace Meta

/-- meta.thrift `PropertyType`. -/
inductive PropType where
  | unknown | bool | int64 | vid | float | double | string | fixedString | int8 | int16 | int32 | timestamp | date | datetime | time
deriving DecidableEq, Repr

/-- What `addField` is called with. -/
structure Col (E : Type) where
  name : Bytes
  type : PropType
  len : Nat
  nullable : Bool
  dflt : Option E

/-- NebulaSchemaProvider.h:22-81 `SchemaField`. -/
structure Field (E : Type) where
  name : Bytes
  type : PropType
  nullable : Bool
  hasDefault : Bool
  dflt : Option E
  size : Nat
  offset : Nat
  nullFlagPos : Nat

/-- NebulaSchemaProvider.h:123-130: the members. -/
structure Schema (E : Type) where
  ver : Int
  index : AMap Bytes Nat
  fields : List (Field E)
  numNullable : Nat

variable {E : Type}

/-- NebulaSchemaProvider.cpp:138-186 `fieldSize`. -/
def fieldSize : PropType → Nat → Option Nat
  | .bool, _ => some 1
  | .int64, _ => some 8
  | .int32, _ => some 4
  | .int16, _ => some 2
  | .int8, _ => some 1
  | .vid, _ => some 8
  | .float, _ => some 4
  | .double, _ => some 8
  | .string, _ => some 8
  | .fixedString, n => if n > 0 then some n else none
  | .timestamp, _ => some 8
  | .date, _ => some (2 + 1 + 1)
  | .time, _ => some (1 + 1 + 1 + 4)
  | .datetime, _ => some (2 + 1 + 1 + 1 + 1 + 1 + 4)
  | .unknown, _ => none

/-- NebulaSchemaProvider.cpp:28-35 `size`, also the offset of the next field (113-117). -/
def Schema.size (s : Schema E) : Nat := match s.fields.getLast? with
  | some f => f.offset + f.size
  | none => 0

/-- NebulaSchemaProvider.cpp:107-135 `addField`. -/
def addField (s : Schema E) (c : Col E) : Option (Schema E) :=
  (fieldSize c.type c.len).map fun size =>
    let f : Field E := ⟨c.name, c.type, c.nullable, c.dflt.isSome, c.dflt, size, s.size, if c.nullable then s.numNullable else 0⟩
    ⟨s.ver, s.index.emplace c.name s.fields.length, s.fields ++ [f], if c.nullable then s.numNullable + 1 else s.numNullable⟩

/-- A schema made by adding fields one after the other. -/
def addFields (s : Schema E) : List (Col E) → Option (Schema E)
  | [] => some s
  | c :: cs => (addField s c).bind fun s' => addFields s' cs

/-- NebulaSchemaProvider.h:84-86: the constructor. -/
def newSchema (ver : Int) : Schema E := ⟨ver, [], [], 0⟩

/-- NebulaSchemaProvider.cpp:38-46 `getFieldIndex`. -/
def Schema.getFieldIndex (s : Schema E) (name : Bytes) : Int := match s.index.find name with
  | some i => i
  | none => -1

/-- NebulaSchemaProvider.cpp:81-92 `field(index)`; `none` for the null pointer. -/
def Schema.fieldAt (s : Schema E) (i : Int) : Option (Field E) :=
  if i < 0 then none else if i ≥ s.fields.length then none else s.fields[i.toNat]?

/-- NebulaSchemaProvider.cpp:95-104 `field(name)`. -/
def Schema.fieldNamed (s : Schema E) (name : Bytes) : Option (Field E) := (s.index.find name).bind fun i => s.fields[i]?

/-- NebulaSchemaProvider.cpp:59-66 `getFieldType(index)`. -/
def Schema.typeAt (s : Schema E) (i : Int) : PropType :=
  if i < 0 ∨ i ≥ s.fields.length then .unknown else match s.fields[i.toNat]? with
    | some f => f.type
    | none => .unknown

/-- NebulaSchemaProvider.cpp:69-78 `getFieldType(name)`. -/
def Schema.typeNamed (s : Schema E) (name : Bytes) : PropType := match s.index.find name with
  | none => .unknown
  | some i => match s.fields[i]? with
    | some f => f.type
    | none => .unknown

/-- SchemaProviderIf.h:46-100: `for (auto it = schema.begin(); it; ++it)`: the fields seen from index `i` on, at most `n`. -/
def Schema.iterate (s : Schema E) : Nat → Int → List (Field E)
  | 0, _ => []
  | n + 1, i => match s.fieldAt i with
    | some f => f :: s.iterate n (i + 1)
    | none => []

end Meta
end Nebula
