import Verif.Meta.Schema
/-!
# Iterators over schemas, names of fields and the life time of records
(src/common/meta/SchemaProviderIf.h:47-98, 122-132, src/common/meta/NebulaSchemaProvider.cpp:49-56, 188-212)

Simplified: the index of an iterator (`int64_t`) is an unbounded number, and schemas are told apart by a number in place of their address.
-/
namespace Nebula
namespace Meta

variable {E : Type}

/-- SchemaProviderIf.h:83-87: the members of `Iterator` (`numFields_` is never used); `owner` is the schema pointed to, `here` the field or null. -/
structure Iter (E : Type) where
  owner : Nat
  index : Int
  here : Option (Field E)

/-- SchemaProviderIf.h:90-97: the constructor. -/
def Iter.at (schemas : Nat → Schema E) (p : Nat) (i : Int) : Iter E := ⟨p, i, (schemas p).fieldAt i⟩

/-- SchemaProviderIf.h:125-127 `begin`. -/
def Iter.begin (schemas : Nat → Schema E) (p : Nat) : Iter E := .at schemas p 0

/-- SchemaProviderIf.h:129-131 `end`. -/
def Iter.end (schemas : Nat → Schema E) (p : Nat) : Iter E := .at schemas p (schemas p).fields.length

/-- SchemaProviderIf.h:59-65 `operator++`. -/
def Iter.incr (schemas : Nat → Schema E) (it : Iter E) : Iter E :=
  if it.here.isSome then ⟨it.owner, it.index + 1, (schemas it.owner).fieldAt (it.index + 1)⟩ else it

/-- SchemaProviderIf.h:67-73 `operator+`: the result, which is a reference to the iterator itself, and the iterator afterwards. -/
def Iter.plus (schemas : Nat → Schema E) (it : Iter E) (steps : UInt16) : Iter E × Iter E :=
  let it' := if it.here.isSome then ⟨it.owner, it.index + steps.toNat, (schemas it.owner).fieldAt (it.index + steps.toNat)⟩ else it
  (it', it')

/-- SchemaProviderIf.h:75-77 `operator bool`. -/
def Iter.valid (it : Iter E) : Bool := it.here.isSome

/-- SchemaProviderIf.h:79-82 `operator==`. -/
def Iter.eq (a b : Iter E) : Bool := a.owner == b.owner && (a.index == b.index || (!a.here.isSome && !b.here.isSome))

/-- NebulaSchemaProvider.cpp:49-56 `getFieldName`: a C string (NebulaSchemaProvider.h:42-44), `none` for the null pointer. -/
def Schema.nameAt (s : Schema E) (i : Int) : Option Bytes :=
  if i < 0 ∨ i ≥ s.fields.length then none else (s.fields[i.toNat]?).map fun f => cstr f.name

/-- interface/meta.thrift:102-106 `SchemaProp`; the comment, which nothing reads, is left out. -/
structure SchemaProp where
  ttlDuration : Option Int
  ttlCol : Option Bytes

/-- NebulaSchemaProvider.cpp:198-212 `getTTLInfo` on what `setProp` (188-190) stored; `none` is a status that is not ok. -/
def SchemaProp.ttlInfo (p : SchemaProp) : Option (Bytes × Int) :=
  match p.ttlCol with
  | none => none
  | some col =>
    let duration := p.ttlDuration.getD 0
    if col.isEmpty ∨ duration ≤ 0 then none else some (col, duration)

end Meta
end Nebula
