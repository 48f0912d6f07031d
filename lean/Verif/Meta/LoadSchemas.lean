import Verif.Text
import Verif.Map
/-!
# The schema cache of the meta client (src/common/clients/meta/MetaClient.cpp)

`S` stands for a schema as built by `addField` (see `Verif.Meta.Schema`).  A null pointer in a vector of schemas is `none`.
`Option` around a state: `none` is undefined behaviour (a write outside a vector) or a failed allocation.
-/
namespace Nebula
namespace Meta

/-- One `TagItem` or `EdgeItem` of the listing: the id, the version, the name and the schema. -/
structure SItem (S : Type) where
  id : Int
  ver : Int
  name : Bytes
  schema : S

/-- MetaClient.h:35-36, 50-53 `TagSchemas`, `EdgeSchemas`: a vector of schemas for each id. -/
abbrev Schemas (S : Type) := AMap Int (List (Option S))

/-- The maps shared by all spaces that one loop fills; `all` is only used for edges. -/
structure SMaps where
  idOf : AMap (Int × Bytes) Int
  nameOf : AMap (Int × Int) Bytes
  newest : AMap (Int × Int) Int
  all : AMap Int (List Bytes)

structure SState (S : Type) where
  schemas : Schemas S
  last : Int
  edges : List (Int × Int)
  maps : SMaps

variable {S : Type}

/-- `std::vector::resize`. -/
def resize (v : List (Option S)) (n : Nat) : List (Option S) := v.take n ++ List.replicate (n - v.length) none

/-- MetaClient.cpp:365-370 (404-409 for edges): the vector is made when another id begins, then the schema is put at its version.  A version
below -1 asks for an impossible size; an index outside the vector is undefined behaviour. -/
def putSchema (m : Schemas S) (last : Int) (x : SItem S) : Option (Schemas S) :=
  if x.ver < -1 then none else
  let m' := if x.id ≠ last then m.update x.id [] fun v => resize v (x.ver + 1).toNat else m
  if 0 ≤ x.ver ∧ x.ver < ((m'.find x.id).getD []).length then
    some (m'.update x.id [] fun v => v.set x.ver.toNat (some x.schema))
  else none

/-- MetaClient.cpp:373-382 (418-427 for edges): the newest version. -/
def putNewest (m : AMap (Int × Int) Int) (space : Int) (x : SItem S) : AMap (Int × Int) Int := match m.find (space, x.id) with
  | some v => if v < x.ver then m.set (space, x.id) x.ver else m
  | none => m.emplace (space, x.id) x.ver

/-- MetaClient.cpp:371-372 (410-413): names and ids. -/
def putNames (m : SMaps) (space : Int) (x : SItem S) : SMaps :=
  ⟨m.idOf.emplace (space, x.name) x.id, m.nameOf.emplace (space, x.id) x.name, m.newest, m.all⟩

/-- MetaClient.cpp:357-387: one tag of the listing. -/
def tagStep (space : Int) (st : SState S) (x : SItem S) : Option (SState S) :=
  (putSchema st.schemas st.last x).map fun m =>
    let maps := putNames st.maps space x
    ⟨m, x.id, st.edges, ⟨maps.idOf, maps.nameOf, putNewest maps.newest space x, maps.all⟩⟩

/-- MetaClient.cpp:391-429: one edge of the listing. -/
def edgeStep (space : Int) (st : SState S) (x : SItem S) : Option (SState S) :=
  (putSchema st.schemas st.last x).map fun m =>
    let maps := putNames st.maps space x
    if (space, x.id) ∈ st.edges then ⟨m, x.id, st.edges, maps⟩
    else ⟨m, x.id, (space, x.id) :: st.edges,
      ⟨maps.idOf, maps.nameOf, putNewest maps.newest space x, maps.all.update space [] fun l => l ++ [x.name]⟩⟩

/-- The loop over a listing. -/
def runItems (step : SState S → SItem S → Option (SState S)) (st : SState S) : List (SItem S) → Option (SState S)
  | [] => some st
  | x :: xs => (step st x).bind fun st' => runItems step st' xs

/-- MetaClient.cpp:325-387, 432: the tags of a space. -/
def loadTags (space : Int) (maps : SMaps) (items : List (SItem S)) : Option (Schemas S × SMaps) :=
  (runItems (tagStep space) ⟨[], -1, [], maps⟩ items).map fun st => (st.schemas, st.maps)

/-- MetaClient.cpp:327, 389-429, 432: the edges of a space. -/
def loadEdges (space : Int) (maps : SMaps) (items : List (SItem S)) : Option (Schemas S × SMaps) :=
  (runItems (edgeStep space) ⟨[], -1, [], ⟨maps.idOf, maps.nameOf, maps.newest, maps.all.set space []⟩⟩ items).map
    fun st => (st.schemas, st.maps)

/-- MetaClient.cpp:2012-2049 `getTagSchemaFromCache`, `getEdgeSchemaFromCache`, for a cached space; `none` is the null pointer. -/
def getSchema (m : Schemas S) (id : Int) (ver : Int) : Option S := match m.find id with
  | none => none
  | some v =>
    if v = [] then none
    else if (v.length : Int) > ver then (if ver < 0 then v.getLast?.join else v[ver.toNat]?.join) else none

/-- MetaClient.cpp:2067-2083, 2098-2114 `getAllLatestVerTagSchema`, `getAllLatestVerEdgeSchemaFromCache`. -/
def latestSchemas (m : Schemas S) : AMap Int (Option S) := m.map fun (id, v) => (id, v.getLast?.join)

/-- MetaClient.cpp:2441-2465 `getLatestTagVersionFromCache`, `getLatestEdgeVersionFromCache`. -/
def latestVersion (m : SMaps) (space id : Int) : Option Int := m.newest.find (space, id)

/-- MetaClient.cpp:1226-1279: names and ids. -/
def idByName (m : SMaps) (space : Int) (name : Bytes) : Option Int := m.idOf.find (space, name)
def nameById (m : SMaps) (space id : Int) : Option Bytes := m.nameOf.find (space, id)

/-- MetaClient.cpp:1282-1293 `getAllEdgeFromCache`. -/
def allEdges (m : SMaps) (space : Int) : Option (List Bytes) := m.all.find space

end Meta
end Nebula
