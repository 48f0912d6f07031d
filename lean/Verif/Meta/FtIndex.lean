import Verif.Map
import Verif.Text
/-!
# Full-text indexes and servers in the cache of the meta client
(src/common/clients/meta/MetaClient.cpp:3541-3546, 3602-3653, src/common/meta/ServerBasedSchemaManager.cpp:151-169, interface/meta.thrift:159-162, 1043-1047)

An answer is `none` for "not ready", `some none` for another error, `some (some x)` for success.
-/
namespace Nebula
namespace Meta

/-- `cpp2::SchemaID`: a tag, an edge, or nothing in a union that was only constructed. -/
inductive SchemaRef where
  | empty
  | tag (id : Int)
  | edge (id : Int)
deriving DecidableEq, Repr

/-- `cpp2::FTIndex`. -/
structure FTIndex where
  space : Int
  dep : SchemaRef
  fields : List Bytes
deriving DecidableEq, Repr

/-- `cpp2::FTIndex()`. -/
def FTIndex.fresh : FTIndex := ⟨0, .empty, []⟩

/-- The members read here.  `C` is a full-text server. -/
structure FtCache (C : Type) where
  ready : Bool
  clients : List C
  indexes : AMap Bytes FTIndex

section
variable {C : Type}

/-- MetaClient.cpp:3602-3609 `getFTIndexesFromCache`. -/
def ftAll (s : FtCache C) : Option (AMap Bytes FTIndex) := if !s.ready then none else some s.indexes

/-- MetaClient.cpp:3611-3624 `getFTIndexBySpaceFromCache`. -/
def ftBySpaceLoop (space : Int) : List (Bytes × FTIndex) → AMap Bytes FTIndex → AMap Bytes FTIndex
  | [], r => r
  | x :: xs, r => ftBySpaceLoop space xs (if x.2.space = space then r.set x.1 x.2 else r)
def ftBySpace (s : FtCache C) (space : Int) : Option (AMap Bytes FTIndex) := if !s.ready then none else some (ftBySpaceLoop space s.indexes [])

/-- The accessor that is called for a union of type `edge_type`, or else: `get_tag_id` of a union that holds no tag is undefined. -/
def SchemaRef.read : SchemaRef → Option Int
  | .edge id => some id
  | .tag id => some id
  | .empty => none

/-- How a search ends. -/
inductive FtFound where
  | notReady | notFound | crashed
  | found (name : Bytes) (x : FTIndex)
deriving DecidableEq, Repr

/-- MetaClient.cpp:3627-3643 `getFTIndexBySpaceSchemaFromCache`; `order` is the order in which the map is visited. -/
def ftBySchemaLoop (space schema : Int) : List (Bytes × FTIndex) → FtFound
  | [] => .notFound
  | x :: xs => match x.2.dep.read with
    | none => .crashed
    | some id => if x.2.space = space ∧ id = schema then .found x.1 x.2 else ftBySchemaLoop space schema xs
def ftBySchema (s : FtCache C) (order : List (Bytes × FTIndex)) (space schema : Int) : FtFound :=
  if !s.ready then .notReady else ftBySchemaLoop space schema order

/-- MetaClient.cpp:3644-3653 `getFTIndexByNameFromCache`: `operator[]` of the map makes an entry if there is none. -/
def ftByName (s : FtCache C) (space : Int) (name : Bytes) : FtCache C × FtFound :=
  if !s.ready then (s, .notReady)
  else match s.indexes.find name with
    | some x => if x.space ≠ space then (s, .notFound) else (s, .found name x)
    | none => ({ s with indexes := s.indexes.set name .fresh }, .found name .fresh)

/-- ServerBasedSchemaManager.cpp:151-160 `getFTClients`. -/
def ftClients (s : FtCache C) : Option (List C) := if !s.ready then none else if s.clients.isEmpty then none else some s.clients

/-- What happens to the cache: the server's answers arrive (MetaClient.cpp:144-167), the first refresh completes, an index is looked up by name.
The other lookups change nothing. -/
inductive FtEvent (C : Type) where
  | clients (l : List C)
  | indexes (m : AMap Bytes FTIndex)
  | ready
  | byName (space : Int) (name : Bytes)

def ftStep (s : FtCache C) : FtEvent C → FtCache C
  | .clients l => { s with clients := l }
  | .indexes m => { s with indexes := m }
  | .ready => { s with ready := true }
  | .byName space name => (ftByName s space name).1

def ftRun : FtCache C → List (FtEvent C) → FtCache C
  | s, [] => s
  | s, e :: es => ftRun (ftStep s e) es

end
end Meta
end Nebula
