import Verif.Storage.Requests
/-!
# How the storage service reads requests (C132): written from src/common/interface/storage.thrift

`understand…` gives the call a request stands for, by the method and the numbers of the fields, and the work it asks of each part.
An order, filter or condition that is not sent is the empty one.
-/
namespace Nebula
namespace Storage

/-- The field of the number, if it was sent. -/
def fieldOf (l : List (Nat × Field)) (n : Nat) : Option Field := (l.find? fun f => f.1 == n).map Prod.snd

def Field.num? : Field → Option Int
  | .num x => some x
  | _ => none
def Field.flag? : Field → Option Bool
  | .flag x => some x
  | _ => none
def Field.text? : Field → Option Bytes
  | .text x => some x
  | _ => none
def Field.texts? : Field → Option (List Bytes)
  | .texts x => some x
  | _ => none
def Field.nums? : Field → Option (List Int)
  | .nums x => some x
  | _ => none
def Field.data? : Field → Option (List Bytes)
  | .data x => some x
  | _ => none
def Field.names? : Field → Option (List (Int × List Bytes))
  | .names x => some x
  | _ => none
def Field.item? : Field → Option Item
  | .item x => some x
  | _ => none
def Field.value? : Field → Option Value
  | .value x => some x
  | _ => none
def Field.struct? : Field → Option (List (Nat × Field))
  | .struct x => some x
  | _ => none
def Field.lists? : Field → Option (List (List Bytes))
  | .lists x => some x
  | _ => none
def Field.rows? : Field → Option (AMap Int (List (List Value)))
  | .parts .row m => some m
  | _ => none
def Field.items? : Field → Option (AMap Int (List Item))
  | .parts .item m => some m
  | _ => none
def Field.keys? : Field → Option (AMap Int (List Bytes))
  | .parts .key m => some m
  | _ => none
def Field.pairs? : Field → Option (AMap Int (List (Bytes × Bytes)))
  | .parts .pair m => some m
  | _ => none

/-- An optional list of structures. -/
def optData (l : List (Nat × Field)) (n : Nat) : Option (List Bytes) := (fieldOf l n).bind Field.data?
/-- A list that is empty if it was not sent. -/
def listData (l : List (Nat × Field)) (n : Nat) : List Bytes := (optData l n).getD []
/-- A text that is empty if it was not sent. -/
def textOr (l : List (Nat × Field)) (n : Nat) : Bytes := ((fieldOf l n).bind Field.text?).getD []

/-- The call for many parts a request stands for, and the work for each part. -/
structure Work where
  kind : Kind
  op : GroupOp kind
  parts : AMap Int (List kind.T)

def understand (w : Wire) : Option Work :=
  let f := fieldOf w.fields
  match w.method with
  | "getNeighbors" => do
    let space ← (f 1).bind Field.num?
    let cols ← (f 2).bind Field.texts?
    let parts ← (f 3).bind Field.rows?
    let s ← (f 4).bind Field.struct?
    let types ← (fieldOf s 1).bind Field.nums?
    let dir ← (fieldOf s 2).bind Field.num?
    let dedup ← (fieldOf s 3).bind Field.flag?
    let random ← (fieldOf s 9).bind Field.flag?
    let limit ← (fieldOf s 10).bind Field.num?
    some ⟨.row, .getNeighbors space cols types dir (optData s 4) (optData s 5) (optData s 6) (optData s 7) dedup random (listData s 8) limit (textOr s 11), parts⟩
  | "getProps" => do
    let space ← (f 1).bind Field.num?
    let parts ← (f 2).bind Field.rows?
    let dedup ← (f 6).bind Field.flag?
    let limit ← (f 8).bind Field.num?
    some ⟨.row, .getProps space (optData w.fields 3) (optData w.fields 4) (optData w.fields 5) dedup (listData w.fields 7) limit (textOr w.fields 9), parts⟩
  | "addVertices" => do
    let space ← (f 1).bind Field.num?
    let parts ← (f 2).bind Field.items?
    let names ← (f 3).bind Field.names?
    let ine ← (f 4).bind Field.flag?
    some ⟨.item, .addVertices space names ine, parts⟩
  | "addEdges" => do
    let space ← (f 1).bind Field.num?
    let parts ← (f 2).bind Field.items?
    let names ← (f 3).bind Field.texts?
    let ine ← (f 4).bind Field.flag?
    some ⟨.item, .addEdges space names ine false, parts⟩
  | "addEdgesAtomic" => do
    let space ← (f 1).bind Field.num?
    let parts ← (f 2).bind Field.items?
    let names ← (f 3).bind Field.texts?
    let ine ← (f 4).bind Field.flag?
    some ⟨.item, .addEdges space names ine true, parts⟩
  | "deleteEdges" => do
    let space ← (f 1).bind Field.num?
    let parts ← (f 2).bind Field.items?
    some ⟨.item, .deleteEdges space, parts⟩
  | "deleteVertices" => do
    let space ← (f 1).bind Field.num?
    let parts ← (f 2).bind Field.items?
    some ⟨.item, .deleteVertices space, parts⟩
  | "deleteTags" => do
    let space ← (f 1).bind Field.num?
    let parts ← (f 2).bind Field.items?
    some ⟨.item, .deleteTags space, parts⟩
  | "get" => do
    let space ← (f 1).bind Field.num?
    let parts ← (f 2).bind Field.keys?
    let partly ← (f 3).bind Field.flag?
    some ⟨.key, .get space partly, parts⟩
  | "put" => do
    let space ← (f 1).bind Field.num?
    let parts ← (f 2).bind Field.pairs?
    some ⟨.pair, .put space, parts⟩
  | "remove" => do
    let space ← (f 1).bind Field.num?
    let parts ← (f 2).bind Field.keys?
    some ⟨.key, .remove space, parts⟩
  | _ => none

/-- The call for one part a request stands for. -/
def understandSingle (w : Wire) : Option (Int × SingleOp) :=
  let f := fieldOf w.fields
  match w.method with
  | "updateVertex" => do
    let space ← (f 1).bind Field.num?
    let part ← (f 2).bind Field.num?
    let id ← (f 3).bind Field.value?
    let tag ← (f 4).bind Field.num?
    let props ← (f 5).bind Field.data?
    let ins ← (f 6).bind Field.flag?
    let ret ← (f 7).bind Field.texts?
    some (part, .updateVertex space id tag props ins ret (textOr w.fields 8))
  | "updateEdge" => do
    let space ← (f 1).bind Field.num?
    let part ← (f 2).bind Field.num?
    let key ← (f 3).bind Field.item?
    let props ← (f 4).bind Field.data?
    let ins ← (f 5).bind Field.flag?
    let ret ← (f 6).bind Field.texts?
    some (part, .updateEdge space key props ins ret (textOr w.fields 7))
  | "getUUID" => do
    let space ← (f 1).bind Field.num?
    let part ← (f 2).bind Field.num?
    let name ← (f 3).bind Field.text?
    some (part, .getUUID space name)
  | _ => none

/-- The call for all parts a request stands for, and the parts of the host. -/
def understandLookup (w : Wire) : Option (List Int × LookupOp) :=
  let f := fieldOf w.fields
  match w.method with
  | "lookupIndex" => do
    let space ← (f 1).bind Field.num?
    let parts ← (f 2).bind Field.nums?
    let s ← (f 3).bind Field.struct?
    let ctx ← (fieldOf s 1).bind Field.data?
    let isEdge ← (fieldOf s 2).bind Field.flag?
    let id ← (fieldOf s 3).bind Field.num?
    let cols ← (f 4).bind Field.texts?
    some (parts, .lookupIndex space ctx isEdge id cols)
  | "lookupAndTraverse" => do
    let space ← (f 1).bind Field.num?
    let parts ← (f 2).bind Field.nums?
    let idx ← (f 3).bind Field.data?
    let spec ← (f 4).bind Field.data?
    match idx, spec with
    | [i], [s] => some (parts, .lookupAndTraverse space i s)
    | _, _ => none
  | _ => none

/-- The bytes by which a vertex id finds its part. -/
def idBytes : Value → Bytes
  | .int i => intBytes i
  | .str s => s
  | _ => []

/-- The bytes by which a row, an item, a key or a pair finds its part. -/
def routeKey : {k : Kind} → k.T → Bytes
  | .row, r => idBytes (r.headD .empty)
  | .item, .vertex v _ => idBytes v
  | .item, .edge v _ _ => idBytes v
  | .key, b => b
  | .pair, kv => kv.1

/-- The rows stand for edges: their fourth column is the destination. -/
def GroupOp.edgeRows : {k : Kind} → GroupOp k → Bool
  | _, .getProps _ _ es _ _ _ _ _ => es.isSome
  | _, _ => false

/-- An id as the service stores it: numbers are eight bytes. -/
def stored (v : Value) : Value := .str (idBytes v)

/-- What a part gets for a row, item, key or pair in a space whose ids are of the type. -/
def asStored (t : VidType) (edgeRows : Bool) : {k : Kind} → k.T → k.T
  | .row, r => if t = .int64 then
      (match r, edgeRows with
      | a :: b :: c :: d :: l, true => stored a :: b :: c :: stored d :: l
      | a :: l, _ => stored a :: l
      | [], _ => [])
    else r
  | .item, .vertex v x => if t = .int64 then .vertex (stored v) x else .vertex v x
  | .item, .edge v w x => if t = .int64 then .edge (stored v) (stored w) x else .edge v w x
  | .key, b => b
  | .pair, kv => kv

/-- The ids are of the type of the space. -/
def IdsOk (t : VidType) (edgeRows : Bool) : {k : Kind} → k.T → Prop
  | .row, r => (t = .int64 ∧ edgeRows = false ∧ ∃ i l, r = .int i :: l) ∨
      (t = .int64 ∧ edgeRows = true ∧ ∃ i b c j l, r = .int i :: b :: c :: .int j :: l) ∨ (t = .fixedString ∧ ∃ s l, r = .str s :: l)
  | .item, .vertex v _ => (t = .int64 ∧ ∃ i, v = .int i) ∨ (t = .fixedString ∧ ∃ s, v = .str s)
  | .item, .edge v w _ => (t = .int64 ∧ (∃ i, v = .int i) ∧ ∃ j, w = .int j) ∨ (t = .fixedString ∧ ∃ s, v = .str s)
  | .key, _ => True
  | .pair, _ => True

/-- The work of the parts at the hosts: `work h p` is what host `h` has to do for part `p`. -/
structure Distributes {k : Kind} (op : GroupOp k) (work : HostAddr → Int → List k.T) (l : List (HostAddr × Wire)) : Prop where
  /-- every host gets one request -/
  once : (l.map Prod.fst).Nodup
  /-- it stands for the call, names each part once, and asks the part for its work -/
  sound : ∀ x ∈ l, ∃ parts, understand x.2 = some ⟨k, op, parts⟩ ∧ (parts.map Prod.fst).Nodup ∧ parts ≠ [] ∧
    ∀ p v, (p, v) ∈ parts → v ≠ [] ∧ v = work x.1 p
  /-- no work is left out -/
  complete : ∀ h p, work h p ≠ [] → ∃ x ∈ l, x.1 = h ∧ ∃ parts, understand x.2 = some ⟨k, op, parts⟩ ∧ (p, work h p) ∈ parts

/-- What part `p` has to do at host `h`: the items of that part, in their order, if the host is its leader. -/
def workOf {k : Kind} (t : VidType) (n : Int) (leader : Int → Option HostAddr) (op : GroupOp k) (items : List k.T) (h : HostAddr) (p : Int) : List k.T :=
  (items.filter fun i => partId n (routeKey i) = some p ∧ leader p = some h).map (asStored t op.edgeRows)

/-- The bytes by which a call for one part finds it. -/
def SingleOp.route : SingleOp → Bytes
  | .updateVertex _ id .. => idBytes id
  | .updateEdge _ key .. => routeKey (k := .item) key
  | .getUUID _ name => name

/-- The call as the part gets it. -/
def SingleOp.asStored (t : VidType) : SingleOp → SingleOp
  | .updateVertex space id tag props ins ret cond => .updateVertex space (if t = .int64 then stored id else id) tag props ins ret cond
  | .updateEdge space key props ins ret cond => .updateEdge space (Storage.asStored t false (k := .item) key) props ins ret cond
  | .getUUID space name => .getUUID space name

/-- The ids are of the type of the space. -/
def SingleOp.IdsOk (t : VidType) : SingleOp → Prop
  | .updateVertex _ id .. => (t = .int64 ∧ ∃ i, id = .int i) ∨ (t = .fixedString ∧ ∃ s, id = .str s)
  | .updateEdge _ key .. => Storage.IdsOk (k := .item) t false key
  | .getUUID .. => True

/-- A transaction as the next service reads it: the number, the space, the part, and the data of its place in the chain. -/
def readTxn (w : Wire) : Option (Int × Int × Int × List Bytes) := do
  let f := fieldOf w.fields
  let txn ← (f 1).bind Field.num?
  let space ← (f 2).bind Field.num?
  let part ← (f 3).bind Field.num?
  let pos ← (f 4).bind Field.num?
  let data ← (f 5).bind Field.lists?
  let mine ← data[pos.toNat]?
  some (txn, space, part, mine)

end Storage
end Nebula
