import Verif.Wire.Compact
import Verif.Value.Lemmas
import Verif.Host.Model
/-!
# Model of the serialisers of the data types (src/common/datatypes/*Ops.inl)

`write…` are the functions `Cpp2Ops<T>::write`, instantiated with the compact protocol; the
functions `…Reader` with `Reader.read` are `Cpp2Ops<T>::read`.  A reader returns `none` where the C++
throws.  Simplifications: an element of an enumeration that is not one of the listed null kinds is
read as an error; the entries of a hash map (elements of a hash set) are iterated in the order in
which they were inserted.
-/
namespace Nebula
namespace Wire

/-! ## The `goto` machine of the generated readers -/

/-- One `Cpp2Ops<T>::read`.  `label id` is the block `_readField_…` of the field `id` together with
the type its `case` in the `switch` accepts; `next id` is the `advanceToNextField` that follows the
block of field `id` (0: the one at the start), `none` standing for `T_STOP`. -/
structure Reader (σ : Type) where
  label : Int → Option (Nat × (σ → Bytes → Option (σ × Bytes)))
  next : Int → Option (Int × Nat)

/-- `advanceToNextField`: if the next byte is the expected one it is consumed and the result is the
field (`none` for the stop byte); otherwise the caller goes to `_loop`. -/
def Reader.advance {σ : Type} (R : Reader σ) (curr : Int) : Bytes → Option (Option Int × Bytes)
  | [] => none
  | b :: r =>
    match R.next curr with
    | none => if b.toNat = 0 then some (none, r) else none
    | some (nid, ct) => if (b.toNat : Int) = (nid - curr) * 16 + ct then some (some nid, r) else none

/-- The machine (e.g. EdgeOps.inl:105-250).  `adv` tells whether the next field is looked for by
`advanceToNextField` or, after a skipped field, by `readFieldBeginNoInline`.  Falling through after
the last block is `_end`.  The first argument bounds the number of fields. -/
def Reader.run {σ : Type} (R : Reader σ) : Nat → Bool → Int → σ → Bytes → Option (σ × Bytes)
  | 0, _, _, _, _ => none
  | f + 1, adv, curr, s, bs =>
    match (if adv then R.advance curr bs else none) with
    | some (none, r) => some (s, r)
    | some (some nid, r) =>
      match R.label nid with
      | none => some (s, r)
      | some (_, g) =>
        match g s r with
        | none => none
        | some (s, r) => R.run f true nid s r
    | none =>
      match readFieldHeader curr bs with
      | none => none
      | some (none, r) => some (s, r)
      | some (some (id, ct), r) =>
        match R.label id with
        | none =>
          match skip (r.length + 1) ct r with
          | none => none
          | some r => R.run f false id s r
        | some (ty, g) =>
          if ty = ct then
            match g s r with
            | none => none
            | some (s, r) => R.run f true id s r
          else
            match skip (r.length + 1) ct r with
            | none => none
            | some r => R.run f false id s r

/-- Reading a structure into the object `s`. -/
def Reader.read {σ : Type} (R : Reader σ) (s : σ) (bs : Bytes) : Option (σ × Bytes) :=
  R.run (bs.length + 1) true 0 s bs

/-- A block that reads one component and stores it. -/
def block {σ α : Type} (rd : Bytes → Option (α × Bytes)) (set : σ → α → σ) (s : σ) (bs : Bytes) :
    Option (σ × Bytes) :=
  match rd bs with
  | none => none
  | some (a, r) => some (set s a, r)

/-- The same where the component already there is read into. -/
def blockAt {σ α : Type} (rd : α → Bytes → Option (α × Bytes)) (get : σ → α) (set : σ → α → σ) (s : σ) (bs : Bytes) :
    Option (σ × Bytes) :=
  match rd (get s) bs with
  | none => none
  | some (a, r) => some (set s a, r)

/-! ## Date, Time, DateTime -/

/-- DateOps.inl:57-80. -/
def writeDate (d : Date) : Bytes :=
  fieldHeader 0 1 ctI16 ++ writeInt d.year ++ fieldHeader 1 2 ctByte ++ writeByte d.month ++
  fieldHeader 2 3 ctByte ++ writeByte d.day ++ [0]

/-- DateOps.inl:83-170. -/
def dateReader : Reader Date where
  label id :=
    if id = 1 then some (ctI16, block readI16 fun s x => { s with year := x })
    else if id = 2 then some (ctByte, block readByte fun s x => { s with month := x })
    else if id = 3 then some (ctByte, block readByte fun s x => { s with day := x })
    else none
  next id :=
    if id = 0 then some (1, ctI16) else if id = 1 then some (2, ctByte) else if id = 2 then some (3, ctByte)
    else none

/-- DateOps.inl:256-281. -/
def writeTime (t : Time) : Bytes :=
  fieldHeader 0 1 ctByte ++ writeByte t.hour ++ fieldHeader 1 2 ctByte ++ writeByte t.minute ++
  fieldHeader 2 3 ctByte ++ writeByte t.sec ++ fieldHeader 3 4 ctI32 ++ writeInt t.microsec ++ [0]

/-- DateOps.inl:286-392.  The first `advanceToNextField` expects an `i16` (line 294) although field 1
is a byte; after the last field it expects a field 5 (line 331) instead of the stop byte. -/
def timeReader : Reader Time where
  label id :=
    if id = 1 then some (ctByte, block readByte fun s x => { s with hour := x })
    else if id = 2 then some (ctByte, block readByte fun s x => { s with minute := x })
    else if id = 3 then some (ctByte, block readByte fun s x => { s with sec := x })
    else if id = 4 then some (ctI32, block readI32 fun s x => { s with microsec := x })
    else none
  next id :=
    if id = 0 then some (1, ctI16) else if id = 1 then some (2, ctByte) else if id = 2 then some (3, ctByte)
    else if id = 3 then some (4, ctI32) else if id = 4 then some (5, ctI32) else none

/-- DateOps.inl:494-537. -/
def writeDateTime (d : DateTime) : Bytes :=
  fieldHeader 0 1 ctI16 ++ writeInt d.year ++ fieldHeader 1 2 ctByte ++ writeByte d.month ++
  fieldHeader 2 3 ctByte ++ writeByte d.day ++ fieldHeader 3 4 ctByte ++ writeByte d.hour ++
  fieldHeader 4 5 ctByte ++ writeByte d.minute ++ fieldHeader 5 6 ctByte ++ writeByte d.sec ++
  fieldHeader 6 7 ctI32 ++ writeInt d.microsec ++ [0]

/-- DateOps.inl:540-711.  The components are stored into bit fields (Date.h:133-149), i.e. reduced
modulo their size.  After the last field the reader expects a field 8 (line 626). -/
def dateTimeReader : Reader DateTime where
  label id :=
    if id = 1 then some (ctI16, block readI16 fun s x => { s with year := x })
    else if id = 2 then some (ctByte, block readByte fun s x => { s with month := wrapU 4 x })
    else if id = 3 then some (ctByte, block readByte fun s x => { s with day := wrapU 5 x })
    else if id = 4 then some (ctByte, block readByte fun s x => { s with hour := wrapU 5 x })
    else if id = 5 then some (ctByte, block readByte fun s x => { s with minute := wrapU 6 x })
    else if id = 6 then some (ctByte, block readByte fun s x => { s with sec := wrapU 6 x })
    else if id = 7 then some (ctI32, block readI32 fun s x => { s with microsec := wrapU 22 x })
    else none
  next id :=
    if id = 0 then some (1, ctI16) else if id = 1 then some (2, ctByte) else if id = 2 then some (3, ctByte)
    else if id = 3 then some (4, ctByte) else if id = 4 then some (5, ctByte) else if id = 5 then some (6, ctByte)
    else if id = 6 then some (7, ctI32) else if id = 7 then some (8, ctI32) else none

/-! ## Containers (`protocol_methods` of the library) -/

/-- `protocol_methods<list<…>>::write` and `set<…>`. -/
def writeList {α : Type} (w : α → Bytes) (ct : Nat) (l : List α) : Bytes :=
  listHeader l.length ct ++ l.flatMap w

/-- `protocol_methods<list<…>>::read`: elements of another type are skipped. -/
def readList {α : Type} (rd : Bytes → Option (α × Bytes)) (ct : Nat) (bs : Bytes) : Option (List α × Bytes) :=
  match readListHeader bs with
  | none => none
  | some (et, n, r) =>
    if et = ct then readN rd n r
    else match readN (fun b => (skip (b.length + 1) (elemCt et) b).map fun r => ((), r)) n r with
      | none => none
      | some (_, r) => some ([], r)

/-- `map<binary, structure>::write`. -/
def writeProps {V : Type} (w : V → Bytes) (m : Props V) : Bytes :=
  mapHeader m.length ctBinary ctStruct ++ m.flatMap fun kv => writeBinary kv.1 ++ w kv.2

/-- `map[key] = value`. -/
def mapSet {V : Type} (m : Props V) (k : Bytes) (v : V) : Props V :=
  if m.any fun kv => kv.1 == k then m.map fun kv => if kv.1 == k then (k, v) else kv else m ++ [(k, v)]

/-- `map<binary, structure>::read`: entries of other types are skipped. -/
def readProps {V : Type} (rv : Bytes → Option (V × Bytes)) (bs : Bytes) : Option (Props V × Bytes) :=
  match readMapHeader bs with
  | none => none
  | some (kt, vt, n, r) =>
    if n = 0 then some ([], r)
    else if kt = ctBinary ∧ vt = ctStruct then
      match readN (fun b => match readBinary b with
          | none => none
          | some (k, b) => match rv b with
            | none => none
            | some (v, b) => some ((k, v), b)) n r with
      | none => none
      | some (kvs, r) => some (kvs.foldl (fun m kv => mapSet m kv.1 kv.2) [], r)
    else
      match readN (fun b => match skip (b.length + 1) (elemCt kt) b with
          | none => none
          | some b => (skip (b.length + 1) (elemCt vt) b).map fun r => ((), r)) n r with
      | none => none
      | some (_, r) => some ([], r)

/-- `set.emplace`: ignored if an equal element is present. -/
def setAdd {V : Type} (eq : V → V → Bool) (s : List V) (v : V) : List V := if s.any fun x => eq x v then s else s ++ [v]

/-! ## The graph types, over the serialiser of values -/

/-- EdgeOps.inl:71-75, PathOps.inl:73-76: only the direction of the edge type is sent. -/
def sgn (t : Int) : Int := if t ≠ 0 then (if t > 0 then 1 else -1) else t

/-- VertexOps.inl:54-72 `Cpp2Ops<Tag>::write`. -/
def writeTag {V : Type} (w : V → Bytes) (t : Tag V) : Bytes :=
  fieldHeader 0 1 ctBinary ++ writeBinary t.name ++ fieldHeader 1 2 ctMap ++ writeProps w t.props ++ [0]

/-- VertexOps.inl:75-151 `Cpp2Ops<Tag>::read`. -/
def tagReader {V : Type} (rv : V → Bytes → Option (V × Bytes)) (v0 : V) : Reader (Tag V) where
  label id :=
    if id = 1 then some (ctBinary, block readBinary fun s x => { s with name := x })
    else if id = 2 then some (ctMap, block (readProps (rv v0)) fun s x => { s with props := x })
    else none
  next id := if id = 0 then some (1, ctBinary) else if id = 1 then some (2, ctMap) else none

/-- VertexOps.inl:225-241 `Cpp2Ops<Vertex>::write`. -/
def writeVertex {V : Type} (w : V → Bytes) (v : Vertex V) : Bytes :=
  fieldHeader 0 1 ctStruct ++ w v.vid ++ fieldHeader 1 2 ctList ++ writeList (writeTag w) ctStruct v.tags ++ [0]

/-- VertexOps.inl:244-321 `Cpp2Ops<Vertex>::read`. -/
def vertexReader {V : Type} (rv : V → Bytes → Option (V × Bytes)) (v0 : V) : Reader (Vertex V) where
  label id :=
    if id = 1 then some (ctStruct, blockAt (rv) (fun s => s.vid) fun s x => { s with vid := x })
    else if id = 2 then some (ctList, block (readList ((tagReader rv v0).read ⟨[], []⟩) ctStruct) fun s x => { s with tags := x })
    else none
  next id := if id = 0 then some (1, ctStruct) else if id = 1 then some (2, ctList) else none

/-- EdgeOps.inl:60-100 `Cpp2Ops<Edge>::write`. -/
def writeEdge {V : Type} (w : V → Bytes) (e : Edge V) : Bytes :=
  fieldHeader 0 1 ctStruct ++ w e.src ++ fieldHeader 1 2 ctStruct ++ w e.dst ++
  fieldHeader 2 3 ctI32 ++ writeInt (sgn e.type) ++ fieldHeader 3 4 ctBinary ++ writeBinary e.name ++
  fieldHeader 4 5 ctI64 ++ writeInt e.ranking ++ fieldHeader 5 6 ctMap ++ writeProps w e.props ++ [0]

/-- EdgeOps.inl:105-250 `Cpp2Ops<Edge>::read`. -/
def edgeReader {V : Type} (rv : V → Bytes → Option (V × Bytes)) (v0 : V) : Reader (Edge V) where
  label id :=
    if id = 1 then some (ctStruct, blockAt (rv) (fun s => s.src) fun s x => { s with src := x })
    else if id = 2 then some (ctStruct, blockAt (rv) (fun s => s.dst) fun s x => { s with dst := x })
    else if id = 3 then some (ctI32, block readI32 fun s x => { s with type := x })
    else if id = 4 then some (ctBinary, block readBinary fun s x => { s with name := x })
    else if id = 5 then some (ctI64, block readI64 fun s x => { s with ranking := x })
    else if id = 6 then some (ctMap, block (readProps (rv v0)) fun s x => { s with props := x })
    else none
  next id :=
    if id = 0 then some (1, ctStruct) else if id = 1 then some (2, ctStruct) else if id = 2 then some (3, ctI32)
    else if id = 3 then some (4, ctBinary) else if id = 4 then some (5, ctI64) else if id = 5 then some (6, ctMap)
    else none

/-- PathOps.inl:63-100 `Cpp2Ops<Step>::write`. -/
def writeStep {V : Type} (w : V → Bytes) (e : Step V) : Bytes :=
  fieldHeader 0 1 ctStruct ++ writeVertex w e.dst ++ fieldHeader 1 2 ctI32 ++ writeInt (sgn e.type) ++
  fieldHeader 2 3 ctBinary ++ writeBinary e.name ++ fieldHeader 3 4 ctI64 ++ writeInt e.ranking ++
  fieldHeader 4 5 ctMap ++ writeProps w e.props ++ [0]

/-- PathOps.inl:103-232 `Cpp2Ops<Step>::read`. -/
def stepReader {V : Type} (rv : V → Bytes → Option (V × Bytes)) (v0 : V) : Reader (Step V) where
  label id :=
    if id = 1 then some (ctStruct, blockAt ((vertexReader rv v0).read) (fun s => s.dst) fun s x => { s with dst := x })
    else if id = 2 then some (ctI32, block readI32 fun s x => { s with type := x })
    else if id = 3 then some (ctBinary, block readBinary fun s x => { s with name := x })
    else if id = 4 then some (ctI64, block readI64 fun s x => { s with ranking := x })
    else if id = 5 then some (ctMap, block (readProps (rv v0)) fun s x => { s with props := x })
    else none
  next id :=
    if id = 0 then some (1, ctStruct) else if id = 1 then some (2, ctI32) else if id = 2 then some (3, ctBinary)
    else if id = 3 then some (4, ctI64) else if id = 4 then some (5, ctMap) else none

/-- PathOps.inl:329-347 `Cpp2Ops<Path>::write`. -/
def writePath {V : Type} (w : V → Bytes) (p : Path V) : Bytes :=
  fieldHeader 0 1 ctStruct ++ writeVertex w p.src ++ fieldHeader 1 2 ctList ++ writeList (writeStep w) ctStruct p.steps ++ [0]

/-- PathOps.inl:350-426 `Cpp2Ops<Path>::read`; Path.h:20 the default `Step` has type 0, ranking 0. -/
def pathReader {V : Type} (rv : V → Bytes → Option (V × Bytes)) (v0 : V) : Reader (Path V) where
  label id :=
    if id = 1 then some (ctStruct, blockAt ((vertexReader rv v0).read) (fun s => s.src) fun s x => { s with src := x })
    else if id = 2 then some (ctList, block (readList ((stepReader rv v0).read ⟨⟨v0, []⟩, 0, [], 0, []⟩) ctStruct) fun s x => { s with steps := x })
    else none
  next id := if id = 0 then some (1, ctStruct) else if id = 1 then some (2, ctList) else none

/-- ListOps.inl:45-60 `Cpp2Ops<List>::write`. -/
def writeVList {V : Type} (w : V → Bytes) (l : List V) : Bytes :=
  fieldHeader 0 1 ctList ++ writeList w ctStruct l ++ [0]

/-- ListOps.inl:63-121 `Cpp2Ops<List>::read`. -/
def listReader {V : Type} (rv : V → Bytes → Option (V × Bytes)) (v0 : V) : Reader (List V) where
  label id := if id = 1 then some (ctList, block (readList (rv v0) ctStruct) fun _ x => x) else none
  next id := if id = 0 then some (1, ctList) else none

/-- MapOps.inl:46-60 `Cpp2Ops<Map>::write`. -/
def writeVMap {V : Type} (w : V → Bytes) (l : Props V) : Bytes :=
  fieldHeader 0 1 ctMap ++ writeProps w l ++ [0]

/-- MapOps.inl:63-121 `Cpp2Ops<Map>::read`. -/
def mapReader {V : Type} (rv : V → Bytes → Option (V × Bytes)) (v0 : V) : Reader (Props V) where
  label id := if id = 1 then some (ctMap, block (readProps (rv v0)) fun _ x => x) else none
  next id := if id = 0 then some (1, ctMap) else none

/-- SetOps.inl:46-60 `Cpp2Ops<Set>::write`. -/
def writeVSet {V : Type} (w : V → Bytes) (l : List V) : Bytes :=
  fieldHeader 0 1 ctSet ++ writeList w ctStruct l ++ [0]

/-- SetOps.inl:63-122 `Cpp2Ops<Set>::read`. -/
def setReader {V : Type} (eq : V → V → Bool) (rv : V → Bytes → Option (V × Bytes)) (v0 : V) : Reader (List V) where
  label id := if id = 1 then some (ctSet, block (readList (rv v0) ctStruct) fun _ x => x.foldl (setAdd eq) []) else none
  next id := if id = 0 then some (1, ctSet) else none

/-- DataSetOps.inl:54-76 `Cpp2Ops<DataSet>::write`; a row is a `List` (DataSet.h:20). -/
def writeDataSet {V : Type} (w : V → Bytes) (cols : List Bytes) (rows : List (List V)) : Bytes :=
  fieldHeader 0 1 ctList ++ writeList writeBinary ctBinary cols ++
  fieldHeader 1 2 ctList ++ writeList (writeVList w) ctStruct rows ++ [0]

/-- DataSetOps.inl:79-160 `Cpp2Ops<DataSet>::read`. -/
def dataSetReader {V : Type} (rv : V → Bytes → Option (V × Bytes)) (v0 : V) : Reader (List Bytes × List (List V)) where
  label id :=
    if id = 1 then some (ctList, block (readList readBinary ctBinary) fun s x => (x, s.2))
    else if id = 2 then some (ctList, block (readList ((listReader rv v0).read []) ctStruct) fun s x => (s.1, x))
    else none
  next id := if id = 0 then some (1, ctList) else if id = 1 then some (2, ctList) else none

/-- KeyValueOps.inl:49-64 `Cpp2Ops<KeyValue>::write` (key, value). -/
def writeKeyValue (kv : Bytes × Bytes) : Bytes :=
  fieldHeader 0 1 ctBinary ++ writeBinary kv.1 ++ fieldHeader 1 2 ctBinary ++ writeBinary kv.2 ++ [0]

/-- KeyValueOps.inl:67-136 `Cpp2Ops<KeyValue>::read`. -/
def keyValueReader : Reader (Bytes × Bytes) where
  label id :=
    if id = 1 then some (ctBinary, block readBinary fun s x => (x, s.2))
    else if id = 2 then some (ctBinary, block readBinary fun s x => (s.1, x))
    else none
  next id := if id = 0 then some (1, ctBinary) else if id = 1 then some (2, ctBinary) else none

/-- HostAddrOps.inl:49-65 `Cpp2Ops<HostAddr>::write`. -/
def writeHostAddr (h : HostAddr) : Bytes :=
  fieldHeader 0 1 ctBinary ++ writeBinary h.host ++ fieldHeader 1 2 ctI32 ++ writeInt h.port ++ [0]

/-- HostAddrOps.inl:68-140 `Cpp2Ops<HostAddr>::read`. -/
def hostAddrReader : Reader HostAddr where
  label id :=
    if id = 1 then some (ctBinary, block readBinary fun s x => { s with host := x })
    else if id = 2 then some (ctI32, block readI32 fun s x => { s with port := x })
    else none
  next id := if id = 0 then some (1, ctBinary) else if id = 1 then some (2, ctI32) else none

/-! ## Values -/

/-- common.thrift:84-93 / Value.h:35-44: the numbers of the null kinds. -/
def nullNum : NullType → Int
  | .null => 0 | .nan => 1 | .badData => 2 | .badType => 3
  | .errOverflow => 4 | .unknownProp => 5 | .divByZero => 6 | .outOfRange => 7

def nullOf (i : Int) : Option NullType :=
  if i = 0 then some .null else if i = 1 then some .nan else if i = 2 then some .badData
  else if i = 3 then some .badType else if i = 4 then some .errOverflow else if i = 5 then some .unknownProp
  else if i = 6 then some .divByZero else if i = 7 then some .outOfRange else none

/-- ValueOps.inl:96-261 `Cpp2Ops<Value>::write`, over the writer of the nested values; `bits` gives
the bit pattern of a `double`. -/
def writeUnion (bits : F64 → Nat) (w : Value → Bytes) : Value → Bytes
  | .empty => [0]
  | .null n => fieldHeader 0 1 ctI32 ++ writeInt (nullNum n) ++ [0]
  | .bool b => fieldHeader 0 2 (if b then ctTrue else ctFalse) ++ [0]
  | .int i => fieldHeader 0 3 ctI64 ++ writeInt i ++ [0]
  | .float f => fieldHeader 0 4 ctDouble ++ writeDouble (bits f) ++ [0]
  | .str s => fieldHeader 0 5 ctBinary ++ writeBinary s ++ [0]
  | .date d => fieldHeader 0 6 ctStruct ++ writeDate d ++ [0]
  | .time t => fieldHeader 0 7 ctStruct ++ writeTime t ++ [0]
  | .datetime d => fieldHeader 0 8 ctStruct ++ writeDateTime d ++ [0]
  | .vertex v => fieldHeader 0 9 ctStruct ++ writeVertex w v ++ [0]
  | .edge e => fieldHeader 0 10 ctStruct ++ writeEdge w e ++ [0]
  | .path p => fieldHeader 0 11 ctStruct ++ writePath w p ++ [0]
  | .list l => fieldHeader 0 12 ctStruct ++ writeVList w l ++ [0]
  | .map m => fieldHeader 0 13 ctStruct ++ writeVMap w m ++ [0]
  | .set l => fieldHeader 0 14 ctStruct ++ writeVSet w l ++ [0]
  | .dataset c r => fieldHeader 0 15 ctStruct ++ writeDataSet w c r ++ [0]

/-- The blocks of the `switch` of ValueOps.inl:282-457: the field's number and type (a Boolean field
carries its value in the type) to the code that reads it; `none` is `skip`. -/
def unionField (rv : Value → Bytes → Option (Value × Bytes)) (id : Int) (ct : Nat) :
    Option (Bytes → Option (Value × Bytes)) :=
  let st {α : Type} (R : Reader α) (a : α) (mk : α → Value) : Option (Bytes → Option (Value × Bytes)) :=
    if ct = ctStruct then some fun bs => (R.read a bs).map fun x => (mk x.1, x.2) else none
  let e := Value.empty
  if id = 1 then
    (if ct = ctI32 then some fun bs => match readI32 bs with
      | none => none
      | some (i, r) => (nullOf i).map fun n => (.null n, r)
     else none)
  else if id = 2 then
    (if ct = ctTrue then some fun bs => some (.bool true, bs)
     else if ct = ctFalse then some fun bs => some (.bool false, bs) else none)
  else if id = 3 then (if ct = ctI64 then some fun bs => (readI64 bs).map fun x => (.int x.1, x.2) else none)
  else if id = 4 then (if ct = ctDouble then some fun bs => (readDouble bs).map fun x => (.float x.1, x.2) else none)
  else if id = 5 then (if ct = ctBinary then some fun bs => (readBinary bs).map fun x => (.str x.1, x.2) else none)
  else if id = 6 then st dateReader Date.default .date
  else if id = 7 then st timeReader ⟨0, 0, 0, 0⟩ .time
  else if id = 8 then st dateTimeReader ⟨0, 1, 1, 0, 0, 0, 0⟩ .datetime
  else if id = 9 then st (vertexReader rv e) ⟨e, []⟩ .vertex
  else if id = 10 then st (edgeReader rv e) ⟨e, e, 0, [], 0, []⟩ .edge
  else if id = 11 then st (pathReader rv e) ⟨⟨e, []⟩, []⟩ .path
  else if id = 12 then st (listReader rv e) [] .list
  else if id = 13 then st (mapReader rv e) [] .map
  else if id = 14 then st (setReader Value.beq rv e) [] .set
  else if id = 15 then st (dataSetReader rv e) ([], []) fun x => .dataset x.1 x.2
  else none

/-- ValueOps.inl:264-468 `Cpp2Ops<Value>::read` into the object `old`.  The first argument bounds the
nesting of values. -/
def readValue : Nat → Value → Bytes → Option (Value × Bytes)
  | 0, _, _ => none
  | f + 1, old, bs =>
    match readFieldHeader 0 bs with
    | none => none
    | some (none, r) => some (.empty, r)
    | some (some (id, ct), r) =>
      let x := match unionField (readValue f) id ct with
        | some g => g r
        | none => (skip (r.length + 1) ct r).map fun r => (old, r)
      match x with
      | none => none
      | some (v, r) =>
        match readFieldHeader id r with
        | some (none, r) => some (v, r)
        | _ => none

/-- `CompactSerializer::deserialize(range, value)`: the value and the bytes left over. -/
def deserialize (bs : Bytes) : Option (Value × Bytes) := readValue (bs.length + 1) .empty bs

mutual
/-- `writeUnion` as structural recursion (see `writeValue_eqn`). -/
def writeValue (bits : F64 → Nat) : Value → Bytes
  | .empty => [0]
  | .null n => fieldHeader 0 1 ctI32 ++ writeInt (nullNum n) ++ [0]
  | .bool b => fieldHeader 0 2 (if b then ctTrue else ctFalse) ++ [0]
  | .int i => fieldHeader 0 3 ctI64 ++ writeInt i ++ [0]
  | .float f => fieldHeader 0 4 ctDouble ++ writeDouble (bits f) ++ [0]
  | .str s => fieldHeader 0 5 ctBinary ++ writeBinary s ++ [0]
  | .date d => fieldHeader 0 6 ctStruct ++ writeDate d ++ [0]
  | .time t => fieldHeader 0 7 ctStruct ++ writeTime t ++ [0]
  | .datetime d => fieldHeader 0 8 ctStruct ++ writeDateTime d ++ [0]
  | .vertex v => fieldHeader 0 9 ctStruct ++ wVertex bits v ++ [0]
  | .edge ⟨s, d, t, n, r, p⟩ => fieldHeader 0 10 ctStruct ++
      (fieldHeader 0 1 ctStruct ++ writeValue bits s ++ fieldHeader 1 2 ctStruct ++ writeValue bits d ++
        fieldHeader 2 3 ctI32 ++ writeInt (sgn t) ++ fieldHeader 3 4 ctBinary ++ writeBinary n ++
        fieldHeader 4 5 ctI64 ++ writeInt r ++ fieldHeader 5 6 ctMap ++
        (mapHeader p.length ctBinary ctStruct ++ wEntries bits p) ++ [0]) ++ [0]
  | .path ⟨v, s⟩ => fieldHeader 0 11 ctStruct ++
      (fieldHeader 0 1 ctStruct ++ wVertex bits v ++ fieldHeader 1 2 ctList ++
        (listHeader s.length ctStruct ++ wSteps bits s) ++ [0]) ++ [0]
  | .list l => fieldHeader 0 12 ctStruct ++
      (fieldHeader 0 1 ctList ++ (listHeader l.length ctStruct ++ wVec bits l) ++ [0]) ++ [0]
  | .map m => fieldHeader 0 13 ctStruct ++
      (fieldHeader 0 1 ctMap ++ (mapHeader m.length ctBinary ctStruct ++ wEntries bits m) ++ [0]) ++ [0]
  | .set l => fieldHeader 0 14 ctStruct ++
      (fieldHeader 0 1 ctSet ++ (listHeader l.length ctStruct ++ wVec bits l) ++ [0]) ++ [0]
  | .dataset c r => fieldHeader 0 15 ctStruct ++
      (fieldHeader 0 1 ctList ++ writeList writeBinary ctBinary c ++
        fieldHeader 1 2 ctList ++ (listHeader r.length ctStruct ++ wRows bits r) ++ [0]) ++ [0]

/-- `writeVertex`. -/
def wVertex (bits : F64 → Nat) : Vertex Value → Bytes
  | ⟨v, ts⟩ => fieldHeader 0 1 ctStruct ++ writeValue bits v ++ fieldHeader 1 2 ctList ++
      (listHeader ts.length ctStruct ++ wTags bits ts) ++ [0]

/-- the tags of `writeVertex`. -/
def wTags (bits : F64 → Nat) : List (Tag Value) → Bytes
  | [] => []
  | ⟨n, p⟩ :: ts => (fieldHeader 0 1 ctBinary ++ writeBinary n ++ fieldHeader 1 2 ctMap ++
      (mapHeader p.length ctBinary ctStruct ++ wEntries bits p) ++ [0]) ++ wTags bits ts

/-- the steps of `writePath`. -/
def wSteps (bits : F64 → Nat) : List (Step Value) → Bytes
  | [] => []
  | ⟨v, t, n, r, p⟩ :: ss => (fieldHeader 0 1 ctStruct ++ wVertex bits v ++ fieldHeader 1 2 ctI32 ++ writeInt (sgn t) ++
      fieldHeader 2 3 ctBinary ++ writeBinary n ++ fieldHeader 3 4 ctI64 ++ writeInt r ++
      fieldHeader 4 5 ctMap ++ (mapHeader p.length ctBinary ctStruct ++ wEntries bits p) ++ [0]) ++ wSteps bits ss

/-- the entries of `writeProps`. -/
def wEntries (bits : F64 → Nat) : List (Bytes × Value) → Bytes
  | [] => []
  | (k, v) :: ps => (writeBinary k ++ writeValue bits v) ++ wEntries bits ps

/-- the elements of `writeList`. -/
def wVec (bits : F64 → Nat) : List Value → Bytes
  | [] => []
  | v :: vs => writeValue bits v ++ wVec bits vs

/-- the rows of `writeDataSet`. -/
def wRows (bits : F64 → Nat) : List (List Value) → Bytes
  | [] => []
  | r :: rs => (fieldHeader 0 1 ctList ++ (listHeader r.length ctStruct ++ wVec bits r) ++ [0]) ++ wRows bits rs
end

/-- `CompactSerializer::serialize(value)`. -/
def serialize (bits : F64 → Nat) (v : Value) : Bytes := writeValue bits v

section eqns
variable (bits : F64 → Nat)

theorem wEntries_eq (p : Props Value) : wEntries bits p = p.flatMap fun kv => writeBinary kv.1 ++ writeValue bits kv.2 := by
  induction p with
  | nil => rfl
  | cons a p ih => simp [wEntries, ih]
theorem wVec_eq (l : List Value) : wVec bits l = l.flatMap (writeValue bits) := by
  induction l with
  | nil => rfl
  | cons a p ih => simp [wVec, ih]
theorem wRows_eq (l : List (List Value)) : wRows bits l = l.flatMap (writeVList (writeValue bits)) := by
  induction l with
  | nil => rfl
  | cons a p ih => simp [wRows, ih, wVec_eq, writeVList, writeList]
theorem wTags_eq (l : List (Tag Value)) : wTags bits l = l.flatMap (writeTag (writeValue bits)) := by
  induction l with
  | nil => rfl
  | cons a p ih => simp [wTags, ih, wEntries_eq, writeTag, writeProps]
theorem wVertex_eq (v : Vertex Value) : wVertex bits v = writeVertex (writeValue bits) v := by
  cases v; simp [wVertex, wTags_eq, writeVertex, writeList]
theorem wSteps_eq (l : List (Step Value)) : wSteps bits l = l.flatMap (writeStep (writeValue bits)) := by
  induction l with
  | nil => rfl
  | cons a p ih => simp [wSteps, ih, wEntries_eq, wVertex_eq, writeStep, writeProps]

/-- The recursive writer is the transcription. -/
theorem writeValue_eqn (v : Value) : writeValue bits v = writeUnion bits (writeValue bits) v := by
  cases v with
  | vertex v => simp [writeValue, writeUnion, wVertex_eq]
  | edge e => simp [writeValue, writeUnion, writeEdge, writeProps, wEntries_eq]
  | path p => simp [writeValue, writeUnion, writePath, writeList, wVertex_eq, wSteps_eq]
  | list l => simp [writeValue, writeUnion, writeVList, writeList, wVec_eq]
  | map l => simp [writeValue, writeUnion, writeVMap, writeProps, wEntries_eq]
  | set l => simp [writeValue, writeUnion, writeVSet, writeList, wVec_eq]
  | dataset c r => simp [writeValue, writeUnion, writeDataSet, writeList, wRows_eq]
  | _ => simp [writeValue, writeUnion]
end eqns

end Wire
end Nebula
