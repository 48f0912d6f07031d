import Verif.Storage.Kv
/-!
# Model of the requests of the storage clients

src/common/clients/storage/GraphStorageClient.cpp, GeneralStorageClient.cpp and InternalStorageClient.cpp: which method of which request is
sent to which host, with which fields.  A request is modelled as it is sent: the method, and the fields that are set, by their
numbers in storage.thrift.  Structures the caller has built (properties, expressions, orders, hints, ...) are passed on unchanged and
are modelled by their serialised bytes.  What becomes of the answers is modelled in Collect.lean (C49) and Client.lean (C72, C74).
-/
namespace Nebula
namespace Storage

/-- What the calls distribute over the parts: rows, vertices and edges, keys, pairs of a key and a value. -/
inductive Kind where
  | row | item | key | pair
deriving DecidableEq

abbrev Kind.T : Kind → Type
  | .row => List Value
  | .item => Item
  | .key => Bytes
  | .pair => Bytes × Bytes

/-- A field of a request. -/
inductive Field where
  | num (n : Int)
  | flag (b : Bool)
  | text (t : Bytes)
  | texts (l : List Bytes)
  | nums (l : List Int)
  /-- a structure or list of structures of the caller -/
  | data (l : List Bytes)
  | names (m : List (Int × List Bytes))
  | item (i : Item)
  | value (v : Value)
  | parts (k : Kind) (m : AMap Int (List k.T))
  | lists (l : List (List Bytes))
  | struct (fields : List (Nat × Field))

/-- A request on the wire: fields that are not set are not sent. -/
structure Wire where
  method : String
  fields : List (Nat × Field)

/-- A field that is set only if the pointer is not null. -/
def setOpt (n : Nat) : Option (List Bytes) → List (Nat × Field)
  | some l => [(n, .data l)]
  | none => []

/-- A field that is set only if the list is not empty. -/
def setList (n : Nat) (l : List Bytes) : List (Nat × Field) := if l = [] then [] else [(n, .data l)]

/-- A field that is set only if the text is not empty. -/
def setText (n : Nat) (t : Bytes) : List (Nat × Field) := if t.length > 0 then [(n, .text t)] else []

/-- The calls that distribute something over the parts, without what is distributed. -/
inductive GroupOp : Kind → Type where
  | getNeighbors (space : Int) (colNames : List Bytes) (edgeTypes : List Int) (direction : Int) (statProps vertexProps edgeProps expressions : Option (List Bytes))
      (dedup random : Bool) (orderBy : List Bytes) (limit : Int) (filter : Bytes) : GroupOp .row
  | getProps (space : Int) (vertexProps edgeProps expressions : Option (List Bytes)) (dedup : Bool) (orderBy : List Bytes) (limit : Int) (filter : Bytes) :
      GroupOp .row
  | addVertices (space : Int) (propNames : List (Int × List Bytes)) (ifNotExists : Bool) : GroupOp .item
  | addEdges (space : Int) (propNames : List Bytes) (ifNotExists useToss : Bool) : GroupOp .item
  | deleteEdges (space : Int) : GroupOp .item
  | deleteVertices (space : Int) : GroupOp .item
  | deleteTags (space : Int) : GroupOp .item
  | get (space : Int) (returnPartly : Bool) : GroupOp .key
  | put (space : Int) : GroupOp .pair
  | remove (space : Int) : GroupOp .key
deriving DecidableEq

/-- The request to one host, made in the loop over the clusters. -/
def GroupOp.wire : {k : Kind} → GroupOp k → AMap Int (List k.T) → Wire
  -- GraphStorageClient.cpp:43-83
  | _, .getNeighbors space cols types dir stats vs es xs dedup random order limit filter, parts =>
    ⟨"getNeighbors", [(1, .num space), (2, .texts cols), (3, .parts .row parts),
      (4, .struct ([(1, .nums types), (2, .num dir), (3, .flag dedup), (9, .flag random)] ++ setOpt 4 stats ++ setOpt 5 vs ++ setOpt 6 es ++ setOpt 7 xs ++
        setList 8 order ++ [(10, .num limit)] ++ setText 11 filter))]⟩
  -- GraphStorageClient.cpp:175-219
  | _, .getProps space vs es xs dedup order limit filter, parts =>
    ⟨"getProps", [(1, .num space), (2, .parts .row parts), (6, .flag dedup)] ++ setOpt 3 vs ++ setOpt 4 es ++ setOpt 5 xs ++ setList 7 order ++
      [(8, .num limit)] ++ setText 9 filter⟩
  -- GraphStorageClient.cpp:105-123
  | _, .addVertices space names ine, parts =>
    ⟨"addVertices", [(1, .num space), (4, .flag ine), (2, .parts .item parts), (3, .names names)]⟩
  -- GraphStorageClient.cpp:147-164
  | _, .addEdges space names ine toss, parts =>
    ⟨if toss then "addEdgesAtomic" else "addEdges", [(1, .num space), (4, .flag ine), (2, .parts .item parts), (3, .texts names)]⟩
  -- GraphStorageClient.cpp:236-254
  | _, .deleteEdges space, parts => ⟨"deleteEdges", [(1, .num space), (2, .parts .item parts)]⟩
  -- GraphStorageClient.cpp:271-289
  | _, .deleteVertices space, parts => ⟨"deleteVertices", [(1, .num space), (2, .parts .item parts)]⟩
  -- GraphStorageClient.cpp:305-323
  | _, .deleteTags space, parts => ⟨"deleteTags", [(1, .num space), (2, .parts .item parts)]⟩
  -- GeneralStorageClient.cpp:29-46
  | _, .get space partly, parts => ⟨"get", [(1, .num space), (2, .parts .key parts), (3, .flag partly)]⟩
  -- GeneralStorageClient.cpp:64-79
  | _, .put space, parts => ⟨"put", [(1, .num space), (2, .parts .pair parts)]⟩
  -- GeneralStorageClient.cpp:98-113
  | _, .remove space, parts => ⟨"remove", [(1, .num space), (2, .parts .key parts)]⟩

/-- What the meta client knows: the type of the ids, the number of parts, the leaders. -/
structure Cluster where
  vid : Option VidType
  parts : Option Int
  leader : Int → Option HostAddr

/-- The requests to all hosts. -/
def wires {k : Kind} (op : GroupOp k) (m : AMap HostAddr (AMap Int (List k.T))) : List (HostAddr × Wire) := m.map fun c => (c.1, op.wire c.2)

/-- The clusters of a call that converts ids. -/
def dropKeys {α : Type} (m : Clusters (Bytes × α)) : Clusters α := m.map fun c => (c.1, c.2.map fun p => (p.1, p.2.map Prod.snd))

/-- A call that converts ids up to `collectResponse`. -/
def idCall {k : Kind} (e : Cluster) (op : GroupOp k) (f : VidType → k.T → Option (Bytes × k.T)) (items : List k.T) : Out (List (HostAddr × Wire)) :=
  match groupCall e.vid e.parts e.leader f items with
  | .ok (m, _) => .ok (wires op (dropKeys m))
  | .error => .error
  | .abort => .abort

/-- A call of the key-value client up to `collectResponse`. -/
def kvCall {k : Kind} (op : GroupOp k) : Out (Clusters k.T) → Out (List (HostAddr × Wire))
  | .ok m => .ok (wires op m)
  | .error => .error
  | .abort => .abort

/-- The calls, with what is distributed. -/
def GroupOp.call (e : Cluster) : {k : Kind} → GroupOp k → List k.T → Out (List (HostAddr × Wire))
  -- GraphStorageClient.cpp:29-39: the rows are those of vertices
  | _, .getNeighbors s c t d st v x ex dd r o l f, rows => idCall e (.getNeighbors s c t d st v x ex dd r o l f) (fun t => idFromRow t false) rows
  -- GraphStorageClient.cpp:164-175: the rows are those of edges if there is a list of edge properties
  | _, .getProps s v x ex dd o l f, rows => idCall e (.getProps s v x ex dd o l f) (fun t => idFromRow t x.isSome) rows
  | _, .addVertices s n i, items => idCall e (.addVertices s n i) idFromItem items
  | _, .addEdges s n i u, items => idCall e (.addEdges s n i u) idFromItem items
  | _, .deleteEdges s, items => idCall e (.deleteEdges s) idFromItem items
  | _, .deleteVertices s, items => idCall e (.deleteVertices s) idFromItem items
  | _, .deleteTags s, items => idCall e (.deleteTags s) idFromItem items
  | _, .get s r, keys => kvCall (.get s r) (keysCall e.parts e.leader keys)
  | _, .put s, kvs => kvCall (.put s) (putCall e.parts e.leader kvs)
  | _, .remove s, keys => kvCall (.remove s) (keysCall e.parts e.leader keys)

/-- The calls for one vertex or edge. -/
inductive SingleOp where
  | updateVertex (space : Int) (id : Value) (tag : Int) (props : List Bytes) (insertable : Bool) (returnProps : List Bytes) (condition : Bytes)
  | updateEdge (space : Int) (key : Item) (props : List Bytes) (insertable : Bool) (returnProps : List Bytes) (condition : Bytes)
  | getUUID (space : Int) (name : Bytes)

/-- The request of such a call for a part. -/
def SingleOp.wire (part : Int) : SingleOp → Wire
  -- GraphStorageClient.cpp:360-378
  | .updateVertex space id tag props ins ret cond =>
    ⟨"updateVertex", [(1, .num space), (3, .value id), (4, .num tag), (2, .num part), (5, .data props), (7, .texts ret), (6, .flag ins)] ++ setText 8 cond⟩
  -- GraphStorageClient.cpp:414-431
  | .updateEdge space key props ins ret cond =>
    ⟨"updateEdge", [(1, .num space), (3, .item key), (2, .num part), (4, .data props), (6, .texts ret), (5, .flag ins)] ++ setText 7 cond⟩
  -- GraphStorageClient.cpp:456-467
  | .getUUID space name => ⟨"getUUID", [(1, .num space), (2, .num part), (3, .text name)]⟩

/-- `updateVertex` (:324-378), `updateEdge` (:381-431) and `getUUID` (:433-467) of GraphStorageClient.cpp up to `getResponse`. -/
def SingleOp.call (e : Cluster) : SingleOp → Out (HostAddr × Wire)
  | .updateVertex space id tag props ins ret cond => match updateCall e.vid e.parts e.leader vidInPlace id with
    | .ok (h, p, id') => .ok (h, SingleOp.wire p (.updateVertex space id' tag props ins ret cond))
    | .error => .error
    | .abort => .abort
  | .updateEdge space key props ins ret cond => match updateCall e.vid e.parts e.leader idFromItem key with
    | .ok (h, p, key') => .ok (h, SingleOp.wire p (.updateEdge space key' props ins ret cond))
    | .error => .error
    | .abort => .abort
  | .getUUID space name => match uuidCall e.parts e.leader name with
    | .ok (h, p) => .ok (h, SingleOp.wire p (.getUUID space name))
    | .error => .error
    | .abort => .abort

/-- A scan request of the caller: only the space and the part are looked at. -/
structure Scan where
  edges : Bool
  space : Int
  part : Int
  rest : List (Nat × Field)

/-- GraphStorageClient.cpp:538-555 `scanEdge`, 557-572 `scanVertex`: the request of the caller is sent as it is. -/
def Scan.call (leader : Int → Int → Option HostAddr) (s : Scan) : Out (HostAddr × Wire) :=
  match scanCall (leader s.space) s.part with
  | .ok h => .ok (h, ⟨if s.edges then "scanEdge" else "scanVertex", [(1, .num s.space), (2, .num s.part)] ++ s.rest⟩)
  | .error => .error
  | .abort => .abort

/-- The calls for all parts of a space.  An index specification is modelled by its fields, a traverse specification by its bytes. -/
inductive LookupOp where
  | lookupIndex (space : Int) (contexts : List Bytes) (isEdge : Bool) (tagOrEdge : Int) (returnCols : List Bytes)
  | lookupAndTraverse (space : Int) (indexSpec traverseSpec : Bytes)
deriving DecidableEq

/-- The request to one host. -/
def LookupOp.wire (parts : List Int) : LookupOp → Wire
  -- GraphStorageClient.cpp:484-505
  | .lookupIndex space ctx isEdge id cols =>
    ⟨"lookupIndex", [(1, .num space), (2, .nums parts), (4, .texts cols), (3, .struct [(1, .data ctx), (2, .flag isEdge), (3, .num id)])]⟩
  -- GraphStorageClient.cpp:520-535
  | .lookupAndTraverse space idx spec =>
    ⟨"lookupAndTraverse", [(1, .num space), (2, .nums parts), (3, .data [idx]), (4, .data [spec])]⟩

/-- `lookupIndex` and `lookupAndTraverse` up to `collectResponse`. -/
def LookupOp.call (e : Cluster) (op : LookupOp) : Out (List (HostAddr × Wire)) := match lookupCall e.parts e.leader with
  | .ok m => .ok (m.map fun c => (c.1, op.wire c.2))
  | .error => .error
  | .abort => .abort

/-- `folly::StringPiece::subpiece(first, length)`: `none` is the exception for a start behind the end. -/
def subpiece (s : Bytes) (first length : Nat) : Option Bytes := if first > s.length then none else some ((s.drop first).take length)

/-- InternalStorageClient.cpp:97-107 `getValue` and 109-143: the part and the request.  The id is behind the four bytes of the part in
the key; `partId` is called with the number of the space in place of the number of parts.  `none`: the key is too short or `partId`
divides by 0. -/
def getValueWire (vidLen : Nat) (space : Int) (key : Bytes) : Option (Int × Wire) :=
  match subpiece key 4 vidLen with
  | none => none
  | some vid => match partId space vid with
    | none => none
    | some p => some (p, ⟨"getValue", [(1, .num space), (2, .num p), (3, .text key)]⟩)

/-- InternalStorageClient.cpp:72-84: the request of `forwardTransaction`. -/
def forwardWire (txn space part : Int) (data : Bytes) : Wire :=
  ⟨"forwardTransaction", [(1, .num txn), (2, .num space), (3, .num part), (4, .num 1), (5, .lists [[], [data]])]⟩

end Storage
end Nebula
