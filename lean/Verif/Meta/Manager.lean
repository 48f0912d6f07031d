import Verif.Meta.LoadData
import Verif.Host.Model
/-!
# The readers of the cache, and the schema and index managers above them
(src/common/clients/meta/MetaClient.cpp:520-547, 1200-1293, 1950-2112, 2175-2362, 2416-2465, src/common/meta/ServerBasedSchemaManager.cpp,
src/common/meta/SchemaManager.cpp, src/common/meta/ServerBasedIndexManager.cpp)

A `StatusOr` is an `Option` here: the error message is left out.  The null pointer of a schema is `none` too.
-/
namespace Nebula
namespace Meta

/-- `cpp2::SpaceDesc` (interface/meta.thrift), without the fields nobody reads here. -/
structure SpaceDesc where
  name : Bytes
  vidType : Int
  vidLen : Option Int
  isolation : Option Int
deriving DecidableEq, Repr

/-- The answer of `getPartsAlloc`. -/
structure PartAnswer where
  parts : AMap Int (List HostAddr)
  terms : Option (AMap Int Int)

section
variable {U F S I L H : Type}

abbrev MClient (U F S I L H : Type) := Client U F PartAnswer S I L SpaceDesc H

/-- `cpp2::PropertyType` (interface/meta.thrift): the two types an id may have. -/
def typeInt64 : Int := 2
def typeFixedString : Int := 7

/-- Every reader: nothing before the client is ready, then the cached space. -/
def cachedSpace (c : MClient U F S I L H) (space : Int) : Option (SpaceInfo PartAnswer S I L SpaceDesc) :=
  if !c.ready then none else c.snap.spaces.find space

/-- MetaClient.cpp:1950-1966 `getSpaceVidLen`. -/
def spaceVidLen (c : MClient U F S I L H) (space : Int) : Option Int :=
  (cachedSpace c space).bind fun i =>
    let len := match i.desc.vidLen with | some n => n | none => 0
    if len ≤ 0 then none else some len

/-- MetaClient.cpp:1968-1986 `getSpaceVidType`. -/
def spaceVidType (c : MClient U F S I L H) (space : Int) : Option Int :=
  (cachedSpace c space).bind fun i => if i.desc.vidType ≠ typeInt64 ∧ i.desc.vidType ≠ typeFixedString then none else some i.desc.vidType

/-- MetaClient.cpp:2002-2009 `getIsolationLevel`; 0 is `DEFAULT`. -/
def isolationLevel (c : MClient U F S I L H) (space : Int) : Option Int := (cachedSpace c space).map fun i => i.desc.isolation.getD 0

/-- MetaClient.cpp:1200-1224 `getSpaceIdByNameFromCache`, `getSpaceNameByIdFromCache`. -/
def spaceId (c : MClient U F S I L H) (name : Bytes) : Option Int := if !c.ready then none else c.snap.byName.find name
def spaceName (c : MClient U F S I L H) (space : Int) : Option Bytes := (cachedSpace c space).map fun i => i.desc.name

/-- MetaClient.cpp:2416-2430 `getTermFromCache`, which does not ask whether the client is ready; 1188-1192 for what was stored. -/
def termOf (c : MClient U F S I L H) (space part : Int) : Int := match c.snap.spaces.find space with
  | none => -1
  | some i => match (i.parts.terms.getD []).find part with
    | none => -1
    | some t => t

/-- MetaClient.cpp:2012-2029 `getTagSchemaFromCache`, 2032-2049 `getEdgeSchemaFromCache`. -/
def tagSchema (c : MClient U F S I L H) (space tag ver : Int) : Option S := (cachedSpace c space).bind fun i => getSchema i.tags tag ver
def edgeSchema (c : MClient U F S I L H) (space edge ver : Int) : Option S := (cachedSpace c space).bind fun i => getSchema i.edges edge ver

/-- MetaClient.cpp:2441-2465 `getLatestTagVersionFromCache`, `getLatestEdgeVersionFromCache`. -/
def latestTag (c : MClient U F S I L H) (space tag : Int) : Option Int := if !c.ready then none else latestVersion c.snap.tagMaps space tag
def latestEdge (c : MClient U F S I L H) (space edge : Int) : Option Int := if !c.ready then none else latestVersion c.snap.edgeMaps space edge

/-- ServerBasedSchemaManager.cpp:39-57 `getTagSchema`, 67-86 `getEdgeSchema`.  The cache is read twice, `c'` is the client at the second time. -/
def managerTagSchema (c c' : MClient U F S I L H) (space tag ver : Int) : Option S :=
  if ver < 0 then match latestTag c space tag with
    | none => none
    | some v => tagSchema c' space tag v
  else tagSchema c' space tag ver
def managerEdgeSchema (c c' : MClient U F S I L H) (space edge ver : Int) : Option S :=
  if ver < 0 then match latestEdge c space edge with
    | none => none
    | some v => edgeSchema c' space edge v
  else edgeSchema c' space edge ver

/-- MetaClient.cpp:1226-1279 `getTagIDByNameFromCache`, `getTagNameByIdFromCache`, `getEdgeTypeByNameFromCache`, `getEdgeNameByTypeFromCache`. -/
def tagId (c : MClient U F S I L H) (space : Int) (name : Bytes) : Option Int := if !c.ready then none else idByName c.snap.tagMaps space name
def tagName (c : MClient U F S I L H) (space tag : Int) : Option Bytes := if !c.ready then none else nameById c.snap.tagMaps space tag
def edgeType (c : MClient U F S I L H) (space : Int) (name : Bytes) : Option Int := if !c.ready then none else idByName c.snap.edgeMaps space name
def edgeName (c : MClient U F S I L H) (space edge : Int) : Option Bytes := if !c.ready then none else nameById c.snap.edgeMaps space edge

/-- SchemaManager.cpp:13-25 `getSchemaIDByName`: whether it is an edge, and the id. -/
def schemaIdByName (c c' : MClient U F S I L H) (space : Int) (name : Bytes) : Option (Bool × Int) := match edgeType c space name with
  | some e => some (true, e)
  | none => match tagId c' space name with
    | some t => some (false, t)
    | none => none

/-- MetaClient.cpp:2067-2083 `getAllLatestVerTagSchema`, 2097-2112 for edges. -/
def allLatestTags (c : MClient U F S I L H) (space : Int) : Option (AMap Int (Option S)) := (cachedSpace c space).map fun i => latestSchemas i.tags
def allLatestEdges (c : MClient U F S I L H) (space : Int) : Option (AMap Int (Option S)) := (cachedSpace c space).map fun i => latestSchemas i.edges

/-- MetaClient.cpp:2193-2212 `getTagIndexFromCache`, 2232-2251 `getEdgeIndexFromCache`. -/
def tagIndex (c : MClient U F S I L H) (space index : Int) : Option I := (cachedSpace c space).bind fun i => i.tagIndexes.find index
def edgeIndex (c : MClient U F S I L H) (space index : Int) : Option I := (cachedSpace c space).bind fun i => i.edgeIndexes.find index

/-- MetaClient.cpp:2273-2294 `getTagIndexesFromCache`, 2296-2319 `getEdgeIndexesFromCache`. -/
def tagIndexList (c : MClient U F S I L H) (space : Int) : Option (List I) := (cachedSpace c space).map fun i => i.tagIndexes.map Prod.snd
def edgeIndexList (c : MClient U F S I L H) (space : Int) : Option (List I) := (cachedSpace c space).map fun i => i.edgeIndexes.map Prod.snd

/-- What `checkTagIndexed` and `checkEdgeIndexed` return. -/
inductive IndexCheck where
  | ok | noIndex | noSpace
deriving DecidableEq, Repr

/-- MetaClient.cpp:520-547 `checkTagIndexed`, `checkEdgeIndexed`: they do not ask whether the client is ready. -/
def checkTag (c : MClient U F S I L H) (space index : Int) : IndexCheck := match c.snap.spaces.find space with
  | some i => match i.tagIndexes.find index with
    | some _ => .ok
    | none => .noIndex
  | none => .noSpace
def checkEdge (c : MClient U F S I L H) (space index : Int) : IndexCheck := match c.snap.spaces.find space with
  | some i => match i.edgeIndexes.find index with
    | some _ => .ok
    | none => .noIndex
  | none => .noSpace

end
end Meta
end Nebula
