import Verif.Meta.LoadSchemas
/-!
# Refreshing the cache of the meta client (src/common/clients/meta/MetaClient.cpp:62-79, 118-299, 437-491)

The contents of the answers that are only stored are type parameters: `U` users, roles and passwords, `F` full-text servers and indexes, `P` the
allocation of parts, `S` schemas, `I` index items, `L` listeners, `D` space descriptions, `H` hosts.
-/
namespace Nebula
namespace Meta

section
variable {U F P S I L D H : Type}

/-- The answers of the server during one refresh; `none` is a failed request. -/
structure Answers (U F P S I L D H : Type) where
  users : Option U
  ftClients : Option F
  ftIndexes : Option F
  spaces : Option (List (Int × Bytes))
  parts : Int → Option P
  tags : Int → Option (List (SItem S))
  edges : Int → Option (List (SItem S))
  tagIndexes : Int → Option (List (Bytes × Int × I))
  edgeIndexes : Int → Option (List (Bytes × Int × I))
  listeners : Int → Option L
  desc : Bytes → Option D
  hosts : Option H

/-- MetaClient.h:60-72 `SpaceInfoCache`. -/
structure SpaceInfo (P S I L D : Type) where
  parts : P
  tags : Schemas S
  edges : Schemas S
  tagIndexes : AMap Int I
  edgeIndexes : AMap Int I
  listeners : L
  desc : D

/-- The members that are replaced together under the lock (MetaClient.cpp:279-292). -/
structure Snapshot (P S I L D H : Type) where
  spaces : AMap Int (SpaceInfo P S I L D)
  byName : AMap Bytes Int
  tagMaps : SMaps
  edgeMaps : SMaps
  hosts : Option H

/-- The cache of the client. -/
structure Client (U F P S I L D H : Type) where
  users : Option U
  ftClients : Option F
  ftIndexes : Option F
  tagIndexByName : AMap (Int × Bytes) Int
  edgeIndexByName : AMap (Int × Bytes) Int
  snap : Snapshot P S I L D H
  ready : Bool

/-- How a refresh ends. -/
inductive Ending where
  | done | failed | crashed
deriving DecidableEq, Repr

/-- MetaClient.cpp:453-462, 465-474 (in `loadIndexes`): the map from names, which is the client's own. -/
def putIndexNames (space : Int) : AMap (Int × Bytes) Int → List (Bytes × Int × I) → AMap (Int × Bytes) Int
  | m, [] => m
  | m, x :: xs => putIndexNames space (m.set (space, x.1) x.2.1) xs

/-- MetaClient.cpp:453-462, 464-474: the indexes by id. -/
def putIndexes : AMap Int I → List (Bytes × Int × I) → AMap Int I
  | m, [] => m
  | m, x :: xs => putIndexes (m.emplace x.2.1 x.2.2) xs

/-- MetaClient.cpp:207-261: one space.  The first component are the client states others may see afterwards; when the request for the edge
indexes fails nothing has been written. -/
def loadSpaceData (a : Answers U F P S I L D H) (c : Client U F P S I L D H) (s : Snapshot P S I L D H) (space : Int × Bytes) :
    List (Client U F P S I L D H) × Client U F P S I L D H × Option (Snapshot P S I L D H) × Ending :=
  match a.parts space.1 with
  | none => ([], c, none, .failed)
  | some parts => match a.tags space.1, a.edges space.1 with
    | some tagItems, some edgeItems => match loadTags space.1 s.tagMaps tagItems, loadEdges space.1 s.edgeMaps edgeItems with
      | some (tags, tagMaps), some (edges, edgeMaps) => match a.tagIndexes space.1, a.edgeIndexes space.1 with
        | some ti, some ei =>
          let c1 := { c with tagIndexByName := putIndexNames space.1 c.tagIndexByName ti }
          let c2 := { c1 with edgeIndexByName := putIndexNames space.1 c1.edgeIndexByName ei }
          match a.listeners space.1 with
          | none => ([c1, c2], c2, none, .failed)
          | some ls => match a.desc space.2 with
            | none => ([c1, c2], c2, none, .failed)
            | some d =>
              let info : SpaceInfo P S I L D := ⟨parts, tags, edges, putIndexes [] ti, putIndexes [] ei, ls, d⟩
              ([c1, c2], c2, some ⟨s.spaces.emplace space.1 info, s.byName.emplace space.2 space.1, tagMaps, edgeMaps, s.hosts⟩, .done)
        | _, _ => ([], c, none, .failed)
      | _, _ => ([], c, none, .crashed)
    | _, _ => ([], c, none, .failed)

/-- MetaClient.cpp:207-261: all spaces. -/
def loadSpacesData (a : Answers U F P S I L D H) (c : Client U F P S I L D H) (s : Snapshot P S I L D H) :
    List (Int × Bytes) → List (Client U F P S I L D H) × Client U F P S I L D H × Option (Snapshot P S I L D H) × Ending
  | [] => ([], c, some s, .done)
  | sp :: sps => match loadSpaceData a c s sp with
    | (seen, c', some s', _) => match loadSpacesData a c' s' sps with
      | (seen', r) => (seen ++ seen', r)
    | (seen, c', none, e) => (seen, c', none, e)

def emptyMaps : SMaps := ⟨[], [], [], []⟩
def emptySnapshot : Snapshot P S I L D H := ⟨[], [], emptyMaps, emptyMaps, none⟩

/-- MetaClient.cpp:144-299 `loadData`, `loadUsersAndRoles`, `loadFulltextClients`, `loadFulltextIndexes`: the client states others may see
while the refresh runs, the final one, and how it ends.  Line 262 looks at the answer about the spaces again instead of that
about the hosts, so that a failed request for the hosts is not noticed: the value of a failed result is read (DCHECK, undefined
behaviour without).  `loadLeader`, `diff`, `listenerDiff` and `loadRemoteListeners` are modelled elsewhere. -/
def loadData (a : Answers U F P S I L D H) (c : Client U F P S I L D H) : List (Client U F P S I L D H) × Client U F P S I L D H × Ending :=
  match a.users with
  | none => ([], c, .failed)
  | some u =>
    let c1 := { c with users := some u }
    match a.ftClients with
    | none => ([c1], c1, .failed)
    | some f =>
      let c2 := { c1 with ftClients := some f }
      match a.ftIndexes with
      | none => ([c1, c2], c2, .failed)
      | some g =>
        let c3 := { c2 with ftIndexes := some g }
        match a.spaces with
        | none => ([c1, c2, c3], c3, .failed)
        | some sps => match loadSpacesData a c3 emptySnapshot sps with
          | (seen, c4, none, e) => ([c1, c2, c3] ++ seen, c4, e)
          | (seen, c4, some s, _) => match a.hosts with
            | none => ([c1, c2, c3] ++ seen, c4, .crashed)
            | some hs =>
              let c5 := { c4 with snap := { s with hosts := some hs } }
              ([c1, c2, c3] ++ seen ++ [c5], { c5 with ready := true }, .done)

/-- MetaClient.cpp:2155-2171 `getTagIndexByNameFromCache` (with `getTagIndexFromCache`): `none` is "not found". -/
def tagIndexByName (c : Client U F P S I L D H) (space : Int) (name : Bytes) : Option I :=
  (c.tagIndexByName.find (space, name)).bind fun id => (c.snap.spaces.find space).bind fun s => s.tagIndexes.find id

end

end Meta
end Nebula
