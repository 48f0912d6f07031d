import Verif.Wire.Lemmas
import Verif.Wire.Response
import Verif.Text
/-!
# Model of the serialisers with a protocol that identifies fields by name

The functions `Cpp2Ops<T>::write` and `read` are templates over the protocol.  A protocol with
`kUsesFieldNames()` (the JSON protocols of the library) sends the name of a field instead of its number; the readers
then call `TccStructTraits<T>::translateFieldName`, which gives the number and the type, before they look at either.
`advanceToNextField` never succeeds with such a protocol, as no number was read, so that every field goes through
`_loop`.

A document is what such a protocol sends: structures and maps are objects, lists and sets are arrays.  Simplifications:
how a document is spelt (escapes, digits, the encoding of byte strings) is the library's and is not modelled; a double
arrives as it was sent; `skip` passes over the datum that is there, whatever type it is told; the entries of a hash map
(elements of a hash set) are iterated in the order in which they were inserted.
-/
namespace Nebula
namespace Wire
namespace Named

/-- The types of the protocol that the serialisers name. -/
inductive TType where
  | bool | byte | i16 | i32 | i64 | double | string | struct | map | set | list
deriving DecidableEq

inductive Doc where
  | bool (b : Bool)
  | num (i : Int)
  | dbl (f : F64)
  | text (s : Bytes)
  | seq (l : List Doc)
  | obj (l : List (Bytes × Doc))
  | table (l : List (Int × Int))

/-- One `Cpp2Ops<T>::read`: `names` is `translateFieldName`, `label id` the block of the field `id` with the type that
its `case` accepts. -/
structure Reader (σ : Type) where
  names : List (Bytes × Int × TType)
  label : Int → Option (TType × (σ → Doc → Option σ))

/-- The number and the type of a field that is to be read, `none` for one that is to be skipped. -/
def Reader.block {σ : Type} (R : Reader σ) (name : Bytes) : Option (σ → Doc → Option σ) :=
  match R.names.lookup name with
  | none => none
  | some (id, ty) =>
    match R.label id with
    | none => none
    | some (t, g) => if t = ty then some g else none

/-- The loop (e.g. SetOps.inl:92-122, EdgeOps.inl:180-250): a field without a block is skipped. -/
def Reader.fields {σ : Type} (R : Reader σ) : σ → List (Bytes × Doc) → Option σ
  | s, [] => some s
  | s, (n, d) :: r =>
    match R.block n with
    | none => R.fields s r
    | some g =>
      match g s d with
      | none => none
      | some s => R.fields s r

/-- Reading a structure into the object `s`. -/
def Reader.read {σ : Type} (R : Reader σ) (s : σ) : Doc → Option σ
  | .obj fs => R.fields s fs
  | _ => none

/-- A block that reads one component and stores it. -/
def put {σ α : Type} (rd : Doc → Option α) (set : σ → α → σ) (s : σ) (d : Doc) : Option σ := (rd d).map (set s)

/-- The same where the component already there is read into. -/
def putAt {σ α : Type} (rd : α → Doc → Option α) (get : σ → α) (set : σ → α → σ) (s : σ) (d : Doc) : Option σ :=
  (rd (get s) d).map (set s)

/-! ## Numbers, texts and containers (the library) -/

/-- A number in range. -/
def readNum (lo hi : Int) : Doc → Option Int
  | .num i => if lo ≤ i ∧ i ≤ hi then some i else none
  | _ => none
def readByte : Doc → Option Int := readNum (-128) 127
def readI16 : Doc → Option Int := readNum (-32768) 32767
def readI32 : Doc → Option Int := readNum (-2147483648) 2147483647
def readI64 : Doc → Option Int := readNum (-9223372036854775808) 9223372036854775807
def readBool : Doc → Option Bool
  | .bool b => some b
  | _ => none
def readDouble : Doc → Option F64
  | .dbl f => some f
  | _ => none
def readText : Doc → Option Bytes
  | .text s => some s
  | _ => none

def readAll {α β : Type} (rd : α → Option β) : List α → Option (List β)
  | [] => some []
  | a :: l => match rd a with
    | none => none
    | some b => (readAll rd l).map (b :: ·)

def readSeq {α : Type} (rd : Doc → Option α) : Doc → Option (List α)
  | .seq l => readAll rd l
  | _ => none

/-- `map<binary, …>`: `map[key] = value` for every entry. -/
def readProps {V : Type} (rv : Doc → Option V) : Doc → Option (Props V)
  | .obj l => (readAll (fun kv => (rv kv.2).map fun v => (kv.1, v)) l).map fun l => l.foldl (fun m kv => mapSet m kv.1 kv.2) []
  | _ => none

def writeProps {V : Type} (w : V → Doc) (m : Props V) : Doc := .obj (m.map fun kv => (kv.1, w kv.2))

/-! ## Date, Time, DateTime -/

/-- DateOps.inl:57-80. -/
def writeDate (d : Date) : Doc :=
  .obj [(ascii "year", .num d.year), (ascii "month", .num d.month), (ascii "day", .num d.day)]

/-- DateOps.inl:29-43, 131-170. -/
def dateReader : Reader Date where
  names := [(ascii "year", 1, .i16), (ascii "month", 2, .byte), (ascii "day", 3, .byte)]
  label id :=
    if id = 1 then some (.i16, put readI16 fun s x => { s with year := x })
    else if id = 2 then some (.byte, put readByte fun s x => { s with month := x })
    else if id = 3 then some (.byte, put readByte fun s x => { s with day := x })
    else none

/-- DateOps.inl:256-281. -/
def writeTime (t : Time) : Doc :=
  .obj [(ascii "hour", .num t.hour), (ascii "minute", .num t.minute), (ascii "sec", .num t.sec), (ascii "microsec", .num t.microsec)]

/-- DateOps.inl:225-242, 345-392. -/
def timeReader : Reader Time where
  names := [(ascii "hour", 1, .byte), (ascii "minute", 2, .byte), (ascii "sec", 3, .byte), (ascii "microsec", 4, .i32)]
  label id :=
    if id = 1 then some (.byte, put readByte fun s x => { s with hour := x })
    else if id = 2 then some (.byte, put readByte fun s x => { s with minute := x })
    else if id = 3 then some (.byte, put readByte fun s x => { s with sec := x })
    else if id = 4 then some (.i32, put readI32 fun s x => { s with microsec := x })
    else none

/-- DateOps.inl:494-537. -/
def writeDateTime (d : DateTime) : Doc :=
  .obj [(ascii "year", .num d.year), (ascii "month", .num d.month), (ascii "day", .num d.day), (ascii "hour", .num d.hour),
    (ascii "minute", .num d.minute), (ascii "sec", .num d.sec), (ascii "microsec", .num d.microsec)]

/-- DateOps.inl:455-481, 640-711; stored into bit fields. -/
def dateTimeReader : Reader DateTime where
  names := [(ascii "year", 1, .i16), (ascii "month", 2, .byte), (ascii "day", 3, .byte), (ascii "hour", 4, .byte),
    (ascii "minute", 5, .byte), (ascii "sec", 6, .byte), (ascii "microsec", 7, .i32)]
  label id :=
    if id = 1 then some (.i16, put readI16 fun s x => { s with year := x })
    else if id = 2 then some (.byte, put readByte fun s x => { s with month := wrapU 4 x })
    else if id = 3 then some (.byte, put readByte fun s x => { s with day := wrapU 5 x })
    else if id = 4 then some (.byte, put readByte fun s x => { s with hour := wrapU 5 x })
    else if id = 5 then some (.byte, put readByte fun s x => { s with minute := wrapU 6 x })
    else if id = 6 then some (.byte, put readByte fun s x => { s with sec := wrapU 6 x })
    else if id = 7 then some (.i32, put readI32 fun s x => { s with microsec := wrapU 22 x })
    else none

/-! ## The graph types, over the serialiser of values -/

section graph
variable {V : Type} (w : V → Doc) (rv : V → Doc → Option V) (v0 : V)

/-- VertexOps.inl:54-72 `Cpp2Ops<Tag>::write`. -/
def writeTag (t : Tag V) : Doc := .obj [(ascii "name", .text t.name), (ascii "props", writeProps w t.props)]

/-- VertexOps.inl:29-40, 75-151 `Cpp2Ops<Tag>::read`. -/
def tagReader : Reader (Tag V) where
  names := [(ascii "name", 1, .string), (ascii "props", 2, .map)]
  label id :=
    if id = 1 then some (.string, put readText fun s x => { s with name := x })
    else if id = 2 then some (.map, put (readProps (rv v0)) fun s x => { s with props := x })
    else none

/-- VertexOps.inl:225-241 `Cpp2Ops<Vertex>::write`. -/
def writeVertex (v : Vertex V) : Doc := .obj [(ascii "vid", w v.vid), (ascii "tags", .seq (v.tags.map (writeTag w)))]

/-- VertexOps.inl:201-212, 244-321 `Cpp2Ops<Vertex>::read`. -/
def vertexReader : Reader (Vertex V) where
  names := [(ascii "vid", 1, .struct), (ascii "tags", 2, .list)]
  label id :=
    if id = 1 then some (.struct, putAt rv (fun s => s.vid) fun s x => { s with vid := x })
    else if id = 2 then some (.list, put (readSeq ((tagReader rv v0).read ⟨[], []⟩)) fun s x => { s with tags := x })
    else none

/-- EdgeOps.inl:60-100 `Cpp2Ops<Edge>::write`. -/
def writeEdge (e : Edge V) : Doc :=
  .obj [(ascii "src", w e.src), (ascii "dst", w e.dst), (ascii "type", .num (sgn e.type)), (ascii "name", .text e.name),
    (ascii "ranking", .num e.ranking), (ascii "props", writeProps w e.props)]

/-- EdgeOps.inl:26-48, 105-250 `Cpp2Ops<Edge>::read`. -/
def edgeReader : Reader (Edge V) where
  names := [(ascii "src", 1, .struct), (ascii "dst", 2, .struct), (ascii "type", 3, .i32), (ascii "name", 4, .string),
    (ascii "ranking", 5, .i64), (ascii "props", 6, .map)]
  label id :=
    if id = 1 then some (.struct, putAt rv (fun s => s.src) fun s x => { s with src := x })
    else if id = 2 then some (.struct, putAt rv (fun s => s.dst) fun s x => { s with dst := x })
    else if id = 3 then some (.i32, put readI32 fun s x => { s with type := x })
    else if id = 4 then some (.string, put readText fun s x => { s with name := x })
    else if id = 5 then some (.i64, put readI64 fun s x => { s with ranking := x })
    else if id = 6 then some (.map, put (readProps (rv v0)) fun s x => { s with props := x })
    else none

/-- PathOps.inl:63-100 `Cpp2Ops<Step>::write`. -/
def writeStep (e : Step V) : Doc :=
  .obj [(ascii "dst", writeVertex w e.dst), (ascii "type", .num (sgn e.type)), (ascii "name", .text e.name),
    (ascii "ranking", .num e.ranking), (ascii "props", writeProps w e.props)]

/-- PathOps.inl:29-49, 103-232 `Cpp2Ops<Step>::read`. -/
def stepReader : Reader (Step V) where
  names := [(ascii "dst", 1, .struct), (ascii "type", 2, .i32), (ascii "name", 3, .string), (ascii "ranking", 4, .i64),
    (ascii "props", 5, .map)]
  label id :=
    if id = 1 then some (.struct, putAt (vertexReader rv v0).read (fun s => s.dst) fun s x => { s with dst := x })
    else if id = 2 then some (.i32, put readI32 fun s x => { s with type := x })
    else if id = 3 then some (.string, put readText fun s x => { s with name := x })
    else if id = 4 then some (.i64, put readI64 fun s x => { s with ranking := x })
    else if id = 5 then some (.map, put (readProps (rv v0)) fun s x => { s with props := x })
    else none

/-- PathOps.inl:329-347 `Cpp2Ops<Path>::write`. -/
def writePath (p : Path V) : Doc := .obj [(ascii "src", writeVertex w p.src), (ascii "steps", .seq (p.steps.map (writeStep w)))]

/-- PathOps.inl:304-315, 350-426 `Cpp2Ops<Path>::read`. -/
def pathReader : Reader (Path V) where
  names := [(ascii "src", 1, .struct), (ascii "steps", 2, .list)]
  label id :=
    if id = 1 then some (.struct, putAt (vertexReader rv v0).read (fun s => s.src) fun s x => { s with src := x })
    else if id = 2 then some (.list, put (readSeq ((stepReader rv v0).read ⟨⟨v0, []⟩, 0, [], 0, []⟩)) fun s x => { s with steps := x })
    else none

/-- ListOps.inl:45-60 `Cpp2Ops<List>::write`. -/
def writeVList (l : List V) : Doc := .obj [(ascii "values", .seq (l.map w))]

/-- ListOps.inl:24-34, 63-121 `Cpp2Ops<List>::read`. -/
def listReader : Reader (List V) where
  names := [(ascii "values", 1, .list)]
  label id := if id = 1 then some (.list, put (readSeq (rv v0)) fun _ x => x) else none

/-- MapOps.inl:46-60 `Cpp2Ops<Map>::write`. -/
def writeVMap (l : Props V) : Doc := .obj [(ascii "kvs", writeProps w l)]

/-- MapOps.inl:24-34, 63-121 `Cpp2Ops<Map>::read`. -/
def mapReader : Reader (Props V) where
  names := [(ascii "kvs", 1, .map)]
  label id := if id = 1 then some (.map, put (readProps (rv v0)) fun _ x => x) else none

/-- SetOps.inl:46-60 `Cpp2Ops<Set>::write`. -/
def writeVSet (l : List V) : Doc := .obj [(ascii "values", .seq (l.map w))]

/-- SetOps.inl:24-34, 63-122 `Cpp2Ops<Set>::read`.  The name is translated to a structure (line 33), the `case` accepts a
set (line 108). -/
def setReader (eq : V → V → Bool) : Reader (List V) where
  names := [(ascii "values", 1, .struct)]
  label id := if id = 1 then some (.set, put (readSeq (rv v0)) fun _ x => x.foldl (setAdd eq) []) else none

/-- DataSetOps.inl:54-76 `Cpp2Ops<DataSet>::write`. -/
def writeDataSet (cols : List Bytes) (rows : List (List V)) : Doc :=
  .obj [(ascii "column_names", .seq (cols.map .text)), (ascii "rows", .seq (rows.map (writeVList w)))]

/-- DataSetOps.inl:29-42, 79-160 `Cpp2Ops<DataSet>::read`. -/
def dataSetReader : Reader (List Bytes × List (List V)) where
  names := [(ascii "column_names", 1, .list), (ascii "rows", 2, .list)]
  label id :=
    if id = 1 then some (.list, put (readSeq readText) fun s x => (x, s.2))
    else if id = 2 then some (.list, put (readSeq ((listReader rv v0).read [])) fun s x => (s.1, x))
    else none
end graph

/-- KeyValueOps.inl:49-64 `Cpp2Ops<KeyValue>::write`. -/
def writeKeyValue (kv : Bytes × Bytes) : Doc := .obj [(ascii "key", .text kv.1), (ascii "value", .text kv.2)]

/-- KeyValueOps.inl:24-37, 67-136 `Cpp2Ops<KeyValue>::read`. -/
def keyValueReader : Reader (Bytes × Bytes) where
  names := [(ascii "key", 1, .string), (ascii "value", 2, .string)]
  label id :=
    if id = 1 then some (.string, put readText fun s x => (x, s.2))
    else if id = 2 then some (.string, put readText fun s x => (s.1, x))
    else none

/-- HostAddrOps.inl:49-65 `Cpp2Ops<HostAddr>::write`. -/
def writeHostAddr (h : HostAddr) : Doc := .obj [(ascii "host", .text h.host), (ascii "port", .num h.port)]

/-- HostAddrOps.inl:24-37, 68-140 `Cpp2Ops<HostAddr>::read`. -/
def hostAddrReader : Reader HostAddr where
  names := [(ascii "host", 1, .string), (ascii "port", 2, .i32)]
  label id :=
    if id = 1 then some (.string, put readText fun s x => { s with host := x })
    else if id = 2 then some (.i32, put readI32 fun s x => { s with port := x })
    else none

/-! ## Values -/

/-- ValueOps.inl:96-261 `Cpp2Ops<Value>::write`, over the writer of the nested values. -/
def writeUnion (w : Value → Doc) : Value → Doc
  | .empty => .obj []
  | .null n => .obj [(ascii "nVal", .num (nullNum n))]
  | .bool b => .obj [(ascii "bVal", .bool b)]
  | .int i => .obj [(ascii "iVal", .num i)]
  | .float f => .obj [(ascii "fVal", .dbl f)]
  | .str s => .obj [(ascii "sVal", .text s)]
  | .date d => .obj [(ascii "dVal", writeDate d)]
  | .time t => .obj [(ascii "tVal", writeTime t)]
  | .datetime d => .obj [(ascii "dtVal", writeDateTime d)]
  | .vertex v => .obj [(ascii "vVal", writeVertex w v)]
  | .edge e => .obj [(ascii "eVal", writeEdge w e)]
  | .path p => .obj [(ascii "pVal", writePath w p)]
  | .list l => .obj [(ascii "lVal", writeVList w l)]
  | .map m => .obj [(ascii "mVal", writeVMap w m)]
  | .set l => .obj [(ascii "uVal", writeVSet w l)]
  | .dataset c r => .obj [(ascii "gVal", writeDataSet w c r)]

/-- ValueOps.inl:33-83, 282-457: a value is a union; the object read into is overwritten by the block that reads. -/
def unionReader (rv : Value → Doc → Option Value) : Reader Value where
  names := [(ascii "nVal", 1, .i32), (ascii "bVal", 2, .bool), (ascii "iVal", 3, .i64), (ascii "fVal", 4, .double),
    (ascii "sVal", 5, .string), (ascii "dVal", 6, .struct), (ascii "tVal", 7, .struct), (ascii "dtVal", 8, .struct),
    (ascii "vVal", 9, .struct), (ascii "eVal", 10, .struct), (ascii "pVal", 11, .struct), (ascii "lVal", 12, .struct),
    (ascii "mVal", 13, .struct), (ascii "uVal", 14, .struct), (ascii "gVal", 15, .struct)]
  label id :=
    let e := Value.empty
    if id = 1 then some (.i32, put (fun d => (readI32 d).bind nullOf) fun _ n => .null n)
    else if id = 2 then some (.bool, put readBool fun _ b => .bool b)
    else if id = 3 then some (.i64, put readI64 fun _ i => .int i)
    else if id = 4 then some (.double, put readDouble fun _ f => .float f)
    else if id = 5 then some (.string, put readText fun _ s => .str s)
    else if id = 6 then some (.struct, put (dateReader.read Date.default) fun _ d => .date d)
    else if id = 7 then some (.struct, put (timeReader.read ⟨0, 0, 0, 0⟩) fun _ d => .time d)
    else if id = 8 then some (.struct, put (dateTimeReader.read ⟨0, 1, 1, 0, 0, 0, 0⟩) fun _ d => .datetime d)
    else if id = 9 then some (.struct, put ((vertexReader rv e).read ⟨e, []⟩) fun _ v => .vertex v)
    else if id = 10 then some (.struct, put ((edgeReader rv e).read ⟨e, e, 0, [], 0, []⟩) fun _ v => .edge v)
    else if id = 11 then some (.struct, put ((pathReader rv e).read ⟨⟨e, []⟩, []⟩) fun _ v => .path v)
    else if id = 12 then some (.struct, put ((listReader rv e).read []) fun _ v => .list v)
    else if id = 13 then some (.struct, put ((mapReader rv e).read []) fun _ v => .map v)
    else if id = 14 then some (.struct, put ((setReader rv e Value.beq).read []) fun _ v => .set v)
    else if id = 15 then some (.struct, put ((dataSetReader rv e).read ([], [])) fun _ v => .dataset v.1 v.2)
    else none

/-- ValueOps.inl:264-468 `Cpp2Ops<Value>::read` into the object `old`: no field clears it, a second field is an
exception.  The first argument bounds the nesting of values. -/
def readValue : Nat → Value → Doc → Option Value
  | 0, _, _ => none
  | f + 1, old, d =>
    match d with
    | .obj [] => some .empty
    | .obj [x] => (unionReader (readValue f)).fields old [x]
    | _ => none

mutual
/-- The size of a document. -/
def Doc.size : Doc → Nat
  | .bool _ => 1
  | .num _ => 1
  | .dbl _ => 1
  | .text _ => 1
  | .table _ => 1
  | .seq l => sizeL l + 1
  | .obj l => sizeM l + 1
def sizeL : List Doc → Nat
  | [] => 0
  | d :: l => d.size + sizeL l
def sizeM : List (Bytes × Doc) → Nat
  | [] => 0
  | (_, d) :: l => d.size + sizeM l
end

/-- Reading a document; its values are nested no deeper than its size. -/
def deserialize (d : Doc) : Option Value := readValue d.size .empty d

mutual
/-- `writeUnion` as structural recursion (see `writeValue_eqn`). -/
def writeValue : Value → Doc
  | .empty => .obj []
  | .null n => .obj [(ascii "nVal", .num (nullNum n))]
  | .bool b => .obj [(ascii "bVal", .bool b)]
  | .int i => .obj [(ascii "iVal", .num i)]
  | .float f => .obj [(ascii "fVal", .dbl f)]
  | .str s => .obj [(ascii "sVal", .text s)]
  | .date d => .obj [(ascii "dVal", writeDate d)]
  | .time t => .obj [(ascii "tVal", writeTime t)]
  | .datetime d => .obj [(ascii "dtVal", writeDateTime d)]
  | .vertex v => .obj [(ascii "vVal", wVertex v)]
  | .edge ⟨s, d, t, n, r, p⟩ => .obj [(ascii "eVal", .obj [(ascii "src", writeValue s), (ascii "dst", writeValue d),
      (ascii "type", .num (sgn t)), (ascii "name", .text n), (ascii "ranking", .num r), (ascii "props", .obj (wEntries p))])]
  | .path ⟨v, s⟩ => .obj [(ascii "pVal", .obj [(ascii "src", wVertex v), (ascii "steps", .seq (wSteps s))])]
  | .list l => .obj [(ascii "lVal", .obj [(ascii "values", .seq (wVec l))])]
  | .map m => .obj [(ascii "mVal", .obj [(ascii "kvs", .obj (wEntries m))])]
  | .set l => .obj [(ascii "uVal", .obj [(ascii "values", .seq (wVec l))])]
  | .dataset c r => .obj [(ascii "gVal", .obj [(ascii "column_names", .seq (c.map .text)), (ascii "rows", .seq (wRows r))])]
/-- `writeVertex`. -/
def wVertex : Vertex Value → Doc
  | ⟨v, ts⟩ => .obj [(ascii "vid", writeValue v), (ascii "tags", .seq (wTags ts))]
/-- the tags of `writeVertex`. -/
def wTags : List (Tag Value) → List Doc
  | [] => []
  | ⟨n, p⟩ :: ts => .obj [(ascii "name", .text n), (ascii "props", .obj (wEntries p))] :: wTags ts
/-- the steps of `writePath`. -/
def wSteps : List (Step Value) → List Doc
  | [] => []
  | ⟨v, t, n, r, p⟩ :: ss => .obj [(ascii "dst", wVertex v), (ascii "type", .num (sgn t)), (ascii "name", .text n),
      (ascii "ranking", .num r), (ascii "props", .obj (wEntries p))] :: wSteps ss
/-- the entries of `writeProps`. -/
def wEntries : List (Bytes × Value) → List (Bytes × Doc)
  | [] => []
  | (k, v) :: ps => (k, writeValue v) :: wEntries ps
/-- the elements of lists and sets. -/
def wVec : List Value → List Doc
  | [] => []
  | v :: vs => writeValue v :: wVec vs
/-- the rows of `writeDataSet`. -/
def wRows : List (List Value) → List Doc
  | [] => []
  | r :: rs => .obj [(ascii "values", .seq (wVec r))] :: wRows rs
end

theorem wEntries_eq (p : Props Value) : wEntries p = p.map fun kv => (kv.1, writeValue kv.2) := by
  induction p with
  | nil => rfl
  | cons a p ih => simp [wEntries, ih]
theorem wVec_eq (l : List Value) : wVec l = l.map writeValue := by
  induction l with
  | nil => rfl
  | cons a p ih => simp [wVec, ih]
theorem wRows_eq (l : List (List Value)) : wRows l = l.map (writeVList writeValue) := by
  induction l with
  | nil => rfl
  | cons a p ih => simp [wRows, ih, wVec_eq, writeVList]
theorem wTags_eq (l : List (Tag Value)) : wTags l = l.map (writeTag writeValue) := by
  induction l with
  | nil => rfl
  | cons a p ih => simp [wTags, ih, wEntries_eq, writeTag, writeProps]
theorem wVertex_eq (v : Vertex Value) : wVertex v = writeVertex writeValue v := by
  cases v; simp [wVertex, wTags_eq, writeVertex]
theorem wSteps_eq (l : List (Step Value)) : wSteps l = l.map (writeStep writeValue) := by
  induction l with
  | nil => rfl
  | cons a p ih => simp [wSteps, ih, wEntries_eq, wVertex_eq, writeStep, writeProps]

/-- The recursive writer is the transcription. -/
theorem writeValue_eqn (v : Value) : writeValue v = writeUnion writeValue v := by
  cases v with
  | vertex v => simp [writeValue, writeUnion, wVertex_eq]
  | edge e => simp [writeValue, writeUnion, writeEdge, writeProps, wEntries_eq]
  | path p => simp [writeValue, writeUnion, writePath, wVertex_eq, wSteps_eq]
  | list l => simp [writeValue, writeUnion, writeVList, wVec_eq]
  | map l => simp [writeValue, writeUnion, writeVMap, writeProps, wEntries_eq]
  | set l => simp [writeValue, writeUnion, writeVSet, wVec_eq]
  | dataset c r => simp [writeValue, writeUnion, writeDataSet, wRows_eq]
  | _ => simp [writeValue, writeUnion]

/-! ## The answers of the graph service -/

/-- `writeFieldBegin` … of a structure: the fields in order; `none` for a field that is not written. -/
def present : List (Bytes × Option Doc) → List (Bytes × Doc)
  | [] => []
  | (_, none) :: l => present l
  | (n, some d) :: l => (n, d) :: present l

/-- A block that reads a component, stores it and sets `isset`. -/
def fld {σ α : Type} (id : Nat) (rd : Doc → Option α) (set : σ → α → σ) : σ × List Nat → Doc → Option (σ × List Nat) :=
  put rd fun s x => (set s.1 x, id :: s.2)

/-- `read` into the object `o`, with the check for the required fields. -/
def readStruct {σ : Type} (R : Reader (σ × List Nat)) (required : List Nat) (o : σ) (d : Doc) : Option σ :=
  match R.read (o, []) d with
  | none => none
  | some s => if required.all fun i => s.2.contains i then some s.1 else none

/-- `map<i64, i64>`. -/
def readTable : Doc → Option (List (Int × Int))
  | .table l => (readAll (fun kv : Int × Int => if InI64 kv.1 ∧ InI64 kv.2 then some kv else none) l).map fun l =>
      l.foldl (fun m kv => setEntry m kv.1 kv.2) []
  | _ => none

/-- AuthResponseOps.inl:61-100. -/
def writeAuth (r : AuthResponse) : Doc :=
  .obj (present [(ascii "error_code", some (.num r.errorCode)), (ascii "error_msg", r.errorMsg.map .text),
    (ascii "session_id", r.sessionId.map .num), (ascii "time_zone_offset_seconds", r.timeZoneOffset.map .num),
    (ascii "time_zone_name", r.timeZoneName.map .text)])

/-- AuthResponseOps.inl:32-53, 103-218. -/
def authReader : Reader (AuthResponse × List Nat) where
  names := [(ascii "error_code", 1, .i32), (ascii "error_msg", 2, .string), (ascii "session_id", 3, .i64),
    (ascii "time_zone_offset_seconds", 4, .i32), (ascii "time_zone_name", 5, .string)]
  label id :=
    if id = 1 then some (.i32, fld 1 readI32 fun s x => { s with errorCode := x })
    else if id = 2 then some (.string, fld 2 readText fun s x => { s with errorMsg := some x })
    else if id = 3 then some (.i64, fld 3 readI64 fun s x => { s with sessionId := some x })
    else if id = 4 then some (.i32, fld 4 readI32 fun s x => { s with timeZoneOffset := some x })
    else if id = 5 then some (.string, fld 5 readText fun s x => { s with timeZoneName := some x })
    else none

def readAuth : AuthResponse → Doc → Option AuthResponse := readStruct authReader [1]

/-- ProfilingStatsOps.inl:58-90. -/
def writeStats (p : ProfilingStats) : Doc :=
  .obj (present [(ascii "rows", some (.num p.rows)), (ascii "exec_duration_in_us", some (.num p.execDuration)),
    (ascii "total_duration_in_us", some (.num p.totalDuration)),
    (ascii "other_stats", p.otherStats.map (writeProps .text))])

/-- ProfilingStatsOps.inl:33-50, 93-209. -/
def statsReader : Reader (ProfilingStats × List Nat) where
  names := [(ascii "rows", 1, .i64), (ascii "exec_duration_in_us", 2, .i64), (ascii "total_duration_in_us", 3, .i64),
    (ascii "other_stats", 4, .map)]
  label id :=
    if id = 1 then some (.i64, fld 1 readI64 fun s x => { s with rows := x })
    else if id = 2 then some (.i64, fld 2 readI64 fun s x => { s with execDuration := x })
    else if id = 3 then some (.i64, fld 3 readI64 fun s x => { s with totalDuration := x })
    else if id = 4 then some (.map, fld 4 (readProps readText) fun s x => { s with otherStats := some x })
    else none

def readStats : ProfilingStats → Doc → Option ProfilingStats := readStruct statsReader [1, 2, 3]

/-- PlanNodeBranchInfoOps.inl:53-68. -/
def writeBranch (b : BranchInfo) : Doc :=
  .obj (present [(ascii "is_do_branch", some (.bool b.isDoBranch)), (ascii "condition_node_id", some (.num b.conditionNodeId))])

/-- PlanNodeBranchInfoOps.inl:31-43, 70-148. -/
def branchReader : Reader (BranchInfo × List Nat) where
  names := [(ascii "is_do_branch", 1, .bool), (ascii "condition_node_id", 2, .i64)]
  label id :=
    if id = 1 then some (.bool, fld 1 readBool fun s x => { s with isDoBranch := x })
    else if id = 2 then some (.i64, fld 2 readI64 fun s x => { s with conditionNodeId := x })
    else none

def readBranch : BranchInfo → Doc → Option BranchInfo := readStruct branchReader [1, 2]

/-- PairOps.inl:51-64. -/
def writePair (p : Bytes × Bytes) : Doc :=
  .obj (present [(ascii "key", some (.text p.1)), (ascii "value", some (.text p.2))])

/-- PairOps.inl:31-43, 66-142. -/
def pairReader : Reader ((Bytes × Bytes) × List Nat) where
  names := [(ascii "key", 1, .string), (ascii "value", 2, .string)]
  label id :=
    if id = 1 then some (.string, fld 1 readText fun s x => (x, s.2))
    else if id = 2 then some (.string, fld 2 readText fun s x => (s.1, x))
    else none

def readPair : Bytes × Bytes → Doc → Option (Bytes × Bytes) := readStruct pairReader [1, 2]

/-- PlanNodeDescriptionOps.inl:69-114. -/
def writeNode (p : PlanNode) : Doc :=
  .obj (present [(ascii "name", some (.text p.name)), (ascii "id", some (.num p.id)),
    (ascii "output_var", some (.text p.outputVar)), (ascii "description", p.description.map fun l => .seq (l.map writePair)),
    (ascii "profiles", p.profiles.map fun l => .seq (l.map writeStats)), (ascii "branch_info", p.branchInfo.map writeBranch),
    (ascii "dependencies", p.dependencies.map fun l => .seq (l.map .num))])

/-- PlanNodeDescriptionOps.inl:33-60, 116-289. -/
def nodeReader : Reader (PlanNode × List Nat) where
  names := [(ascii "name", 1, .string), (ascii "id", 2, .i64), (ascii "output_var", 3, .string), (ascii "description", 4, .list),
    (ascii "profiles", 5, .list), (ascii "branch_info", 6, .struct), (ascii "dependencies", 7, .list)]
  label id :=
    if id = 1 then some (.string, fld 1 readText fun s x => { s with name := x })
    else if id = 2 then some (.i64, fld 2 readI64 fun s x => { s with id := x })
    else if id = 3 then some (.string, fld 3 readText fun s x => { s with outputVar := x })
    else if id = 4 then some (.list, fld 4 (readSeq (readPair ([], []))) fun s x => { s with description := some x })
    else if id = 5 then some (.list, fld 5 (readSeq (readStats {})) fun s x => { s with profiles := some x })
    else if id = 6 then some (.struct, fld 6 (readBranch {}) fun s x => { s with branchInfo := some x })
    else if id = 7 then some (.list, fld 7 (readSeq readI64) fun s x => { s with dependencies := some x })
    else none

def readNode : PlanNode → Doc → Option PlanNode := readStruct nodeReader [1, 2, 3]

/-- PlanDescriptionOps.inl:57-85. -/
def writePlan (p : PlanDesc) : Doc :=
  .obj (present [(ascii "plan_node_descs", some (.seq (p.nodes.map writeNode))), (ascii "node_index_map", some (.table p.nodeIndexMap)),
    (ascii "format", some (.text p.format)), (ascii "optimize_time_in_us", some (.num p.optimizeTime))])

/-- PlanDescriptionOps.inl:31-49, 87-212. -/
def planReader : Reader (PlanDesc × List Nat) where
  names := [(ascii "plan_node_descs", 1, .list), (ascii "node_index_map", 2, .map), (ascii "format", 3, .string),
    (ascii "optimize_time_in_us", 4, .i32)]
  label id :=
    if id = 1 then some (.list, fld 1 (readSeq (readNode {})) fun s x => { s with nodes := x })
    else if id = 2 then some (.map, fld 2 readTable fun s x => { s with nodeIndexMap := x })
    else if id = 3 then some (.string, fld 3 readText fun s x => { s with format := x })
    else if id = 4 then some (.i32, fld 4 readI32 fun s x => { s with optimizeTime := x })
    else none

def readPlan : PlanDesc → Doc → Option PlanDesc := readStruct planReader [1, 2, 3, 4]

/-- ExecutionResponseOps.inl:69-114. -/
def writeExec (r : ExecResponse) : Doc :=
  .obj (present [(ascii "error_code", some (.num r.errorCode)), (ascii "latency_in_us", some (.num r.latency)),
    (ascii "data", r.data.map fun d => writeDataSet writeValue d.1 d.2), (ascii "space_name", r.spaceName.map .text),
    (ascii "error_msg", r.errorMsg.map .text), (ascii "plan_desc", r.plan.map writePlan), (ascii "comment", r.comment.map .text)])

/-- ExecutionResponseOps.inl:33-60, 116-279, over the reader of values. -/
def execReader (rv : Value → Doc → Option Value) : Reader (ExecResponse × List Nat) where
  names := [(ascii "error_code", 1, .i32), (ascii "latency_in_us", 2, .i32), (ascii "data", 3, .struct),
    (ascii "space_name", 4, .string), (ascii "error_msg", 5, .string), (ascii "plan_desc", 6, .struct), (ascii "comment", 7, .string)]
  label id :=
    if id = 1 then some (.i32, fld 1 readI32 fun s x => { s with errorCode := x })
    else if id = 2 then some (.i32, fld 2 readI32 fun s x => { s with latency := x })
    else if id = 3 then some (.struct, fld 3 ((dataSetReader rv .empty).read ([], [])) fun s x => { s with data := some x })
    else if id = 4 then some (.string, fld 4 readText fun s x => { s with spaceName := some x })
    else if id = 5 then some (.string, fld 5 readText fun s x => { s with errorMsg := some x })
    else if id = 6 then some (.struct, fld 6 (readPlan {}) fun s x => { s with plan := some x })
    else if id = 7 then some (.string, fld 7 readText fun s x => { s with comment := some x })
    else none

/-- Deserialising into the object `o`. -/
def readExec (o : ExecResponse) (d : Doc) : Option ExecResponse := readStruct (execReader (readValue d.size)) [1, 2] o d

end Named
end Wire
end Nebula
