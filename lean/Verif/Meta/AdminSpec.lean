import Verif.Meta.Admin
/-!
# How the meta service reads requests (C129): written from src/common/interface/meta.thrift

`understand` gives the call a request stands for, by the method and the numbers of the fields.
-/
namespace Nebula
namespace Meta
namespace Admin

/-- The field of the number, if it was sent. -/
def Wire.field (w : Wire) (n : Nat) : Option Field := (w.fields.find? fun f => f.1 == n).map Prod.snd

/-- The field, if it is of this type. -/
def Field.text? : Field → Option (Bytes)
  | .text x => some x
  | _ => none

/-- The field, if it is of this type. -/
def Field.num? : Field → Option (Int)
  | .num x => some x
  | _ => none

/-- The field, if it is of this type. -/
def Field.flag? : Field → Option (Bool)
  | .flag x => some x
  | _ => none

/-- The field, if it is of this type. -/
def Field.host? : Field → Option (HostAddr)
  | .host x => some x
  | _ => none

/-- The field, if it is of this type. -/
def Field.hosts? : Field → Option (List HostAddr)
  | .hosts x => some x
  | _ => none

/-- The field, if it is of this type. -/
def Field.texts? : Field → Option (List Bytes)
  | .texts x => some x
  | _ => none

/-- The field, if it is of this type. -/
def Field.nums? : Field → Option (List Int)
  | .nums x => some x
  | _ => none

/-- The field, if it is of this type. -/
def Field.data? : Field → Option (Bytes)
  | .data x => some x
  | _ => none

/-- The fields of a configuration item. -/
def Field.item? : Field → Option (Int × Bytes × Option Bytes)
  | .item m n v => some (m, n, v)
  | _ => none

/-- The bytes of a default value key belong to `space`, `schema` and `field`. -/
def IsDefaultKey (space schema : Int) (field key : Bytes) : Prop :=
  ∃ a b, key = a ++ b ++ field ∧ a.length = 4 ∧ b.length = 4 ∧
    (∀ i (h : i < a.length), a[i].toNat = (space / 256 ^ i % 256).toNat) ∧ (∀ i (h : i < b.length), b[i].toNat = (schema / 256 ^ i % 256).toNat)

/-- The call a request stands for.  The two calls for default values, which are reads of the key-value store, are specified by
`IsDefaultKey`. -/
def understand (w : Wire) : Option Call := match w.method with
  | "runAdminJob" => do
    let op ← (w.field 1).bind Field.num?
    let cmd ← (w.field 2).bind Field.num?
    let paras ← (w.field 3).bind Field.texts?
    some (.submitJob op cmd paras)
  | "createSpace" => do
    let desc ← (w.field 1).bind Field.data?
    let ifNotExists ← (w.field 2).bind Field.flag?
    some (.createSpace desc ifNotExists)
  | "listSpaces" => some .listSpaces
  | "getSpace" => do
    let name ← (w.field 1).bind Field.text?
    some (.getSpace name)
  | "dropSpace" => do
    let name ← (w.field 1).bind Field.text?
    let ifExists ← (w.field 2).bind Field.flag?
    some (.dropSpace name ifExists)
  | "listHosts" => do
    let type ← (w.field 1).bind Field.num?
    some (.listHosts type)
  | "listParts" => do
    let space ← (w.field 1).bind Field.num?
    let parts ← (w.field 2).bind Field.nums?
    some (.listParts space parts)
  | "getPartsAlloc" => do
    let space ← (w.field 1).bind Field.num?
    some (.getPartsAlloc space)
  | "createTag" => do
    let space ← (w.field 1).bind Field.num?
    let name ← (w.field 2).bind Field.text?
    let schema ← (w.field 3).bind Field.data?
    let ifNotExists ← (w.field 4).bind Field.flag?
    some (.createTagSchema space name schema ifNotExists)
  | "alterTag" => do
    let space ← (w.field 1).bind Field.num?
    let name ← (w.field 2).bind Field.text?
    let items ← (w.field 3).bind Field.data?
    let prop ← (w.field 4).bind Field.data?
    some (.alterTagSchema space name items prop)
  | "listTags" => do
    let space ← (w.field 1).bind Field.num?
    some (.listTagSchemas space)
  | "getTag" => do
    let space ← (w.field 1).bind Field.num?
    let name ← (w.field 2).bind Field.text?
    let version ← (w.field 3).bind Field.num?
    some (.getTagSchema space name version)
  | "dropTag" => do
    let space ← (w.field 1).bind Field.num?
    let name ← (w.field 2).bind Field.text?
    let ifExists ← (w.field 3).bind Field.flag?
    some (.dropTagSchema space name ifExists)
  | "createTagIndex" => do
    let space ← (w.field 1).bind Field.num?
    let index ← (w.field 2).bind Field.text?
    let name ← (w.field 3).bind Field.text?
    let fields ← (w.field 4).bind Field.data?
    let ifNotExists ← (w.field 5).bind Field.flag?
    some (.createTagIndex space index name fields ifNotExists ((w.field 6).bind Field.data?))
  | "dropTagIndex" => do
    let space ← (w.field 1).bind Field.num?
    let name ← (w.field 2).bind Field.text?
    let ifExists ← (w.field 3).bind Field.flag?
    some (.dropTagIndex space name ifExists)
  | "getTagIndex" => do
    let space ← (w.field 1).bind Field.num?
    let name ← (w.field 2).bind Field.text?
    some (.getTagIndex space name)
  | "listTagIndexes" => do
    let space ← (w.field 1).bind Field.num?
    some (.listTagIndexes space)
  | "rebuildTagIndex" => do
    let space ← (w.field 1).bind Field.num?
    let name ← (w.field 2).bind Field.text?
    some (.rebuildTagIndex space name)
  | "listTagIndexStatus" => do
    let space ← (w.field 1).bind Field.num?
    some (.listTagIndexStatus space)
  | "createEdge" => do
    let space ← (w.field 1).bind Field.num?
    let name ← (w.field 2).bind Field.text?
    let schema ← (w.field 3).bind Field.data?
    let ifNotExists ← (w.field 4).bind Field.flag?
    some (.createEdgeSchema space name schema ifNotExists)
  | "alterEdge" => do
    let space ← (w.field 1).bind Field.num?
    let name ← (w.field 2).bind Field.text?
    let items ← (w.field 3).bind Field.data?
    let prop ← (w.field 4).bind Field.data?
    some (.alterEdgeSchema space name items prop)
  | "listEdges" => do
    let space ← (w.field 1).bind Field.num?
    some (.listEdgeSchemas space)
  | "getEdge" => do
    let space ← (w.field 1).bind Field.num?
    let name ← (w.field 2).bind Field.text?
    let version ← (w.field 3).bind Field.num?
    some (.getEdgeSchema space name version)
  | "dropEdge" => do
    let space ← (w.field 1).bind Field.num?
    let name ← (w.field 2).bind Field.text?
    let ifExists ← (w.field 3).bind Field.flag?
    some (.dropEdgeSchema space name ifExists)
  | "createEdgeIndex" => do
    let space ← (w.field 1).bind Field.num?
    let index ← (w.field 2).bind Field.text?
    let name ← (w.field 3).bind Field.text?
    let fields ← (w.field 4).bind Field.data?
    let ifNotExists ← (w.field 5).bind Field.flag?
    some (.createEdgeIndex space index name fields ifNotExists ((w.field 6).bind Field.data?))
  | "dropEdgeIndex" => do
    let space ← (w.field 1).bind Field.num?
    let name ← (w.field 2).bind Field.text?
    let ifExists ← (w.field 3).bind Field.flag?
    some (.dropEdgeIndex space name ifExists)
  | "getEdgeIndex" => do
    let space ← (w.field 1).bind Field.num?
    let name ← (w.field 2).bind Field.text?
    some (.getEdgeIndex space name)
  | "listEdgeIndexes" => do
    let space ← (w.field 1).bind Field.num?
    some (.listEdgeIndexes space)
  | "rebuildEdgeIndex" => do
    let space ← (w.field 1).bind Field.num?
    let name ← (w.field 2).bind Field.text?
    some (.rebuildEdgeIndex space name)
  | "listEdgeIndexStatus" => do
    let space ← (w.field 1).bind Field.num?
    some (.listEdgeIndexStatus space)
  | "createUser" => do
    let account ← (w.field 1).bind Field.text?
    let password ← (w.field 2).bind Field.text?
    let ifNotExists ← (w.field 3).bind Field.flag?
    some (.createUser account password ifNotExists)
  | "dropUser" => do
    let account ← (w.field 1).bind Field.text?
    let ifExists ← (w.field 2).bind Field.flag?
    some (.dropUser account ifExists)
  | "alterUser" => do
    let account ← (w.field 1).bind Field.text?
    let password ← (w.field 2).bind Field.text?
    some (.alterUser account password)
  | "grantRole" => do
    let role ← (w.field 1).bind Field.data?
    some (.grantToUser role)
  | "revokeRole" => do
    let role ← (w.field 1).bind Field.data?
    some (.revokeFromUser role)
  | "listUsers" => some .listUsers
  | "listRoles" => do
    let space ← (w.field 1).bind Field.num?
    some (.listRoles space)
  | "changePassword" => do
    let account ← (w.field 1).bind Field.text?
    let newPwd ← (w.field 2).bind Field.text?
    let oldPwd ← (w.field 3).bind Field.text?
    some (.changePassword account newPwd oldPwd)
  | "getUserRoles" => do
    let account ← (w.field 1).bind Field.text?
    some (.getUserRoles account)
  | "balance" => match w.field 2 with
    | some i => i.num?.map Call.showBalance
    | none => some (.balance (((w.field 3).bind Field.hosts?).getD []) (((w.field 4).bind Field.flag?).getD false)
        (((w.field 5).bind Field.flag?).getD false))
  | "leaderBalance" => some .balanceLeader
  | "regConfig" => do
    let items ← (w.field 1).bind Field.data?
    some (.regConfig items)
  | "getConfig" => (w.field 1).bind Field.item? |>.map fun x => .getConfig x.1 x.2.1
  | "setConfig" => (w.field 1).bind Field.item? |>.bind fun x => x.2.2.map fun v => .setConfig x.1 x.2.1 v
  | "listConfigs" => do
    let module ← (w.field 2).bind Field.num?
    some (.listConfigs module)
  | "createSnapshot" => some .createSnapshot
  | "dropSnapshot" => do
    let name ← (w.field 1).bind Field.text?
    some (.dropSnapshot name)
  | "listSnapshots" => some .listSnapshots
  | "addListener" => do
    let space ← (w.field 1).bind Field.num?
    let type ← (w.field 2).bind Field.num?
    let hosts ← (w.field 3).bind Field.hosts?
    some (.addListener space type hosts)
  | "removeListener" => do
    let space ← (w.field 1).bind Field.num?
    let type ← (w.field 2).bind Field.num?
    some (.removeListener space type)
  | "listListener" => do
    let space ← (w.field 1).bind Field.num?
    some (.listListener space)
  | "addZone" => do
    let zone ← (w.field 1).bind Field.text?
    let nodes ← (w.field 2).bind Field.hosts?
    some (.addZone zone nodes)
  | "dropZone" => do
    let zone ← (w.field 1).bind Field.text?
    some (.dropZone zone)
  | "addHostIntoZone" => do
    let node ← (w.field 1).bind Field.host?
    let zone ← (w.field 2).bind Field.text?
    some (.addHostIntoZone node zone)
  | "dropHostFromZone" => do
    let node ← (w.field 1).bind Field.host?
    let zone ← (w.field 2).bind Field.text?
    some (.dropHostFromZone node zone)
  | "getZone" => do
    let zone ← (w.field 1).bind Field.text?
    some (.getZone zone)
  | "listZones" => some .listZones
  | "addGroup" => do
    let group ← (w.field 1).bind Field.text?
    let zones ← (w.field 2).bind Field.texts?
    some (.addGroup group zones)
  | "dropGroup" => do
    let group ← (w.field 1).bind Field.text?
    some (.dropGroup group)
  | "addZoneIntoGroup" => do
    let zone ← (w.field 1).bind Field.text?
    let group ← (w.field 2).bind Field.text?
    some (.addZoneIntoGroup zone group)
  | "dropZoneFromGroup" => do
    let zone ← (w.field 1).bind Field.text?
    let group ← (w.field 2).bind Field.text?
    some (.dropZoneFromGroup zone group)
  | "getGroup" => do
    let group ← (w.field 1).bind Field.text?
    some (.getGroup group)
  | "listGroups" => some .listGroups
  | "getStatis" => do
    let space ← (w.field 1).bind Field.num?
    some (.getStatis space)
  | "reportTaskFinish" => do
    let job ← (w.field 2).bind Field.num?
    let task ← (w.field 3).bind Field.num?
    let code ← (w.field 1).bind Field.num?
    some (.reportTaskFinish job task code ((w.field 4).bind Field.data?))
  | "signInFTService" => do
    let type ← (w.field 1).bind Field.num?
    let clients ← (w.field 2).bind Field.data?
    some (.signInFTService type clients)
  | "signOutFTService" => some .signOutFTService
  | "listFTClients" => some .listFTClients
  | "createFTIndex" => do
    let name ← (w.field 1).bind Field.text?
    let index ← (w.field 2).bind Field.data?
    some (.createFTIndex name index)
  | "dropFTIndex" => do
    let space ← (w.field 1).bind Field.num?
    let name ← (w.field 2).bind Field.text?
    some (.dropFTIndex space name)
  | "listFTIndexes" => some .listFTIndexes
  | "createSession" => do
    let user ← (w.field 1).bind Field.text?
    let graph ← (w.field 2).bind Field.host?
    let client ← (w.field 3).bind Field.text?
    some (.createSession user graph client)
  | "updateSessions" => do
    let sessions ← (w.field 1).bind Field.data?
    some (.updateSessions sessions)
  | "listSessions" => some .listSessions
  | "getSession" => do
    let id ← (w.field 1).bind Field.num?
    some (.getSession id)
  | "removeSession" => do
    let id ← (w.field 1).bind Field.num?
    some (.removeSession id)
  | "killQuery" => do
    let queries ← (w.field 1).bind Field.data?
    some (.killQuery queries)
  | _ => none

end Admin
end Meta
end Nebula
