import Verif.Meta.Kv
/-!
# The administrative calls of the meta client: src/common/clients/meta/MetaClient.cpp

Every call builds a thrift request, names a method of the service, and makes something of a successful answer; `getResponse` (C54)
does the rest.  A request is modelled as it is sent: the method, and the fields that are set, by their numbers in
meta.thrift.  Structures the caller has built (schemas, descriptions, roles, sessions, ...) are passed on unchanged and
are modelled by their serialised bytes.
-/
namespace Nebula
namespace Meta
namespace Admin

/-- A field of a request. -/
inductive Field where
  | text (t : Bytes)
  | num (n : Int)
  | flag (b : Bool)
  | host (h : HostAddr)
  | hosts (l : List HostAddr)
  | texts (l : List Bytes)
  | nums (l : List Int)
  /-- a structure or list of structures of the caller -/
  | data (b : Bytes)
  /-- a `ConfigItem` with module, name and perhaps a value -/
  | item (module : Int) (name : Bytes) (value : Option Bytes)
deriving DecidableEq, Repr

/-- A request on the wire: fields that are not set are not sent. -/
structure Wire where
  method : String
  fields : List (Nat × Field)
deriving DecidableEq, Repr

/-- The calls, with their arguments in the order of MetaClient.h. -/
inductive Call where
  | submitJob (op : Int) (cmd : Int) (paras : List Bytes)
  | createSpace (desc : Bytes) (ifNotExists : Bool)
  | listSpaces
  | getSpace (name : Bytes)
  | dropSpace (name : Bytes) (ifExists : Bool)
  | listHosts (type : Int)
  | listParts (space : Int) (parts : List Int)
  | getPartsAlloc (space : Int)
  | createTagSchema (space : Int) (name : Bytes) (schema : Bytes) (ifNotExists : Bool)
  | alterTagSchema (space : Int) (name : Bytes) (items : Bytes) (prop : Bytes)
  | listTagSchemas (space : Int)
  | getTagSchema (space : Int) (name : Bytes) (version : Int)
  | dropTagSchema (space : Int) (name : Bytes) (ifExists : Bool)
  | createTagIndex (space : Int) (index : Bytes) (name : Bytes) (fields : Bytes) (ifNotExists : Bool) (comment : Option Bytes)
  | dropTagIndex (space : Int) (name : Bytes) (ifExists : Bool)
  | getTagIndex (space : Int) (name : Bytes)
  | listTagIndexes (space : Int)
  | rebuildTagIndex (space : Int) (name : Bytes)
  | listTagIndexStatus (space : Int)
  | createEdgeSchema (space : Int) (name : Bytes) (schema : Bytes) (ifNotExists : Bool)
  | alterEdgeSchema (space : Int) (name : Bytes) (items : Bytes) (prop : Bytes)
  | listEdgeSchemas (space : Int)
  | getEdgeSchema (space : Int) (name : Bytes) (version : Int)
  | dropEdgeSchema (space : Int) (name : Bytes) (ifExists : Bool)
  | createEdgeIndex (space : Int) (index : Bytes) (name : Bytes) (fields : Bytes) (ifNotExists : Bool) (comment : Option Bytes)
  | dropEdgeIndex (space : Int) (name : Bytes) (ifExists : Bool)
  | getEdgeIndex (space : Int) (name : Bytes)
  | listEdgeIndexes (space : Int)
  | rebuildEdgeIndex (space : Int) (name : Bytes)
  | listEdgeIndexStatus (space : Int)
  | createUser (account : Bytes) (password : Bytes) (ifNotExists : Bool)
  | dropUser (account : Bytes) (ifExists : Bool)
  | alterUser (account : Bytes) (password : Bytes)
  | grantToUser (role : Bytes)
  | revokeFromUser (role : Bytes)
  | listUsers
  | listRoles (space : Int)
  | changePassword (account : Bytes) (newPwd : Bytes) (oldPwd : Bytes)
  | getUserRoles (account : Bytes)
  | balance (hostDel : List HostAddr) (isStop : Bool) (isReset : Bool)
  | showBalance (id : Int)
  | balanceLeader
  | getTagDefaultValue (space : Int) (tag : Int) (field : Bytes)
  | getEdgeDefaultValue (space : Int) (edge : Int) (field : Bytes)
  | regConfig (items : Bytes)
  | getConfig (module : Int) (name : Bytes)
  | setConfig (module : Int) (name : Bytes) (value : Bytes)
  | listConfigs (module : Int)
  | createSnapshot
  | dropSnapshot (name : Bytes)
  | listSnapshots
  | addListener (space : Int) (type : Int) (hosts : List HostAddr)
  | removeListener (space : Int) (type : Int)
  | listListener (space : Int)
  | addZone (zone : Bytes) (nodes : List HostAddr)
  | dropZone (zone : Bytes)
  | addHostIntoZone (node : HostAddr) (zone : Bytes)
  | dropHostFromZone (node : HostAddr) (zone : Bytes)
  | getZone (zone : Bytes)
  | listZones
  | addGroup (group : Bytes) (zones : List Bytes)
  | dropGroup (group : Bytes)
  | addZoneIntoGroup (zone : Bytes) (group : Bytes)
  | dropZoneFromGroup (zone : Bytes) (group : Bytes)
  | getGroup (group : Bytes)
  | listGroups
  | getStatis (space : Int)
  | reportTaskFinish (job : Int) (task : Int) (code : Int) (statis : Option Bytes)
  | signInFTService (type : Int) (clients : Bytes)
  | signOutFTService
  | listFTClients
  | createFTIndex (name : Bytes) (index : Bytes)
  | dropFTIndex (space : Int) (name : Bytes)
  | listFTIndexes
  | createSession (user : Bytes) (graph : HostAddr) (client : Bytes)
  | updateSessions (sessions : Bytes)
  | listSessions
  | getSession (id : Int)
  | removeSession (id : Int)
  | killQuery (queries : Bytes)
deriving DecidableEq, Repr

/-- A field that is set only if the pointer is not null. -/
def setOpt (n : Nat) : Option Bytes → List (Nat × Field)
  | some b => [(n, .data b)]
  | none => []

/-- The `n` low bytes of a number, least first: how an integer lies in memory. -/
def rawBytes : Nat → Int → Bytes
  | 0, _ => []
  | n + 1, x => UInt8.ofNat (x % 256).toNat :: rawBytes n (x / 256)

/-- MetaClient.cpp:2741-2806: the key of a default value: space, tag or edge, and name of the field; `GraphSpaceID`, `TagID` and
`EdgeType` are 32 bit numbers. -/
def defaultKey (space schema : Int) (field : Bytes) : Bytes := rawBytes 4 space ++ rawBytes 4 schema ++ field

/-- The request of each call. -/
def Call.wire : Call → Wire
  -- MetaClient.cpp:1049-1065
  | .submitJob op cmd paras => ⟨"runAdminJob", [(1, .num op), (2, .num cmd), (3, .texts paras)]⟩
  -- MetaClient.cpp:1067-1083
  | .createSpace desc ifNotExists => ⟨"createSpace", [(1, .data desc), (2, .flag ifNotExists)]⟩
  -- MetaClient.cpp:1085-1098
  | .listSpaces => ⟨"listSpaces", []⟩
  -- MetaClient.cpp:1101-1114
  | .getSpace name => ⟨"getSpace", [(1, .text name)]⟩
  -- MetaClient.cpp:1117-1133
  | .dropSpace name ifExists => ⟨"dropSpace", [(1, .text name), (2, .flag ifExists)]⟩
  -- MetaClient.cpp:1136-1152
  | .listHosts type => ⟨"listHosts", [(1, .num type)]⟩
  -- MetaClient.cpp:1154-1170
  | .listParts space parts => ⟨"listParts", [(1, .num space), (2, .nums parts)]⟩
  -- MetaClient.cpp:1173-1197
  | .getPartsAlloc space => ⟨"getPartsAlloc", [(1, .num space)]⟩
  -- MetaClient.cpp:1517-1537
  | .createTagSchema space name schema ifNotExists => ⟨"createTag", [(1, .num space), (2, .text name), (3, .data schema), (4, .flag ifNotExists)]⟩
  -- MetaClient.cpp:1540-1561
  | .alterTagSchema space name items prop => ⟨"alterTag", [(1, .num space), (2, .text name), (3, .data items), (4, .data prop)]⟩
  -- MetaClient.cpp:1564-1579
  | .listTagSchemas space => ⟨"listTags", [(1, .num space)]⟩
  -- MetaClient.cpp:1602-1619
  | .getTagSchema space name version => ⟨"getTag", [(1, .num space), (2, .text name), (3, .num version)]⟩
  -- MetaClient.cpp:1582-1599
  | .dropTagSchema space name ifExists => ⟨"dropTag", [(1, .num space), (2, .text name), (3, .flag ifExists)]⟩
  -- MetaClient.cpp:1728-1756
  | .createTagIndex space index name fields ifNotExists comment => ⟨"createTagIndex", [(1, .num space), (2, .text index), (3, .text name), (4, .data fields), (5, .flag ifNotExists)] ++ setOpt 6 comment⟩
  -- MetaClient.cpp:1759-1777
  | .dropTagIndex space name ifExists => ⟨"dropTagIndex", [(1, .num space), (2, .text name), (3, .flag ifExists)]⟩
  -- MetaClient.cpp:1780-1797
  | .getTagIndex space name => ⟨"getTagIndex", [(1, .num space), (2, .text name)]⟩
  -- MetaClient.cpp:1800-1816
  | .listTagIndexes space => ⟨"listTagIndexes", [(1, .num space)]⟩
  -- MetaClient.cpp:1819-1837
  | .rebuildTagIndex space name => ⟨"rebuildTagIndex", [(1, .num space), (2, .text name)]⟩
  -- MetaClient.cpp:1840-1856
  | .listTagIndexStatus space => ⟨"listTagIndexStatus", [(1, .num space)]⟩
  -- MetaClient.cpp:1622-1643
  | .createEdgeSchema space name schema ifNotExists => ⟨"createEdge", [(1, .num space), (2, .text name), (3, .data schema), (4, .flag ifNotExists)]⟩
  -- MetaClient.cpp:1646-1667
  | .alterEdgeSchema space name items prop => ⟨"alterEdge", [(1, .num space), (2, .text name), (3, .data items), (4, .data prop)]⟩
  -- MetaClient.cpp:1670-1685
  | .listEdgeSchemas space => ⟨"listEdges", [(1, .num space)]⟩
  -- MetaClient.cpp:1688-1705
  | .getEdgeSchema space name version => ⟨"getEdge", [(1, .num space), (2, .text name), (3, .num version)]⟩
  -- MetaClient.cpp:1708-1725
  | .dropEdgeSchema space name ifExists => ⟨"dropEdge", [(1, .num space), (2, .text name), (3, .flag ifExists)]⟩
  -- MetaClient.cpp:1859-1888
  | .createEdgeIndex space index name fields ifNotExists comment => ⟨"createEdgeIndex", [(1, .num space), (2, .text index), (3, .text name), (4, .data fields), (5, .flag ifNotExists)] ++ setOpt 6 comment⟩
  -- MetaClient.cpp:1891-1909
  | .dropEdgeIndex space name ifExists => ⟨"dropEdgeIndex", [(1, .num space), (2, .text name), (3, .flag ifExists)]⟩
  -- MetaClient.cpp:1912-1929
  | .getEdgeIndex space name => ⟨"getEdgeIndex", [(1, .num space), (2, .text name)]⟩
  -- MetaClient.cpp:1932-1948
  | .listEdgeIndexes space => ⟨"listEdgeIndexes", [(1, .num space)]⟩
  -- MetaClient.cpp:2116-2134
  | .rebuildEdgeIndex space name => ⟨"rebuildEdgeIndex", [(1, .num space), (2, .text name)]⟩
  -- MetaClient.cpp:2137-2153
  | .listEdgeIndexStatus space => ⟨"listEdgeIndexStatus", [(1, .num space)]⟩
  -- MetaClient.cpp:2526-2543
  | .createUser account password ifNotExists => ⟨"createUser", [(1, .text account), (2, .text password), (3, .flag ifNotExists)]⟩
  -- MetaClient.cpp:2546-2562
  | .dropUser account ifExists => ⟨"dropUser", [(1, .text account), (2, .flag ifExists)]⟩
  -- MetaClient.cpp:2565-2581
  | .alterUser account password => ⟨"alterUser", [(1, .text account), (2, .text password)]⟩
  -- MetaClient.cpp:2584-2599
  | .grantToUser role => ⟨"grantRole", [(1, .data role)]⟩
  -- MetaClient.cpp:2602-2617
  | .revokeFromUser role => ⟨"revokeRole", [(1, .data role)]⟩
  -- MetaClient.cpp:2620-2634
  | .listUsers => ⟨"listUsers", []⟩
  -- MetaClient.cpp:2637-2652
  | .listRoles space => ⟨"listRoles", [(1, .num space)]⟩
  -- MetaClient.cpp:2655-2674
  | .changePassword account newPwd oldPwd => ⟨"changePassword", [(1, .text account), (2, .text newPwd), (3, .text oldPwd)]⟩
  -- MetaClient.cpp:2677-2692
  | .getUserRoles account => ⟨"getUserRoles", [(1, .text account)]⟩
  -- MetaClient.cpp:2695-2720
  | .balance hostDel isStop isReset => ⟨"balance", (if hostDel.isEmpty then [] else [(3, .hosts hostDel)]) ++
      (if isStop then [(4, .flag true)] else []) ++ (if isReset then [(5, .flag true)] else [])⟩
  -- MetaClient.cpp:2723-2738
  | .showBalance id => ⟨"balance", [(2, .num id)]⟩
  -- MetaClient.cpp:2741-2754
  | .balanceLeader => ⟨"leaderBalance", []⟩
  -- MetaClient.cpp:2757-2780
  | .getTagDefaultValue space tag field => ⟨"get", [(1, .text (ascii "__default__")), (2, .text (defaultKey space tag field))]⟩
  -- MetaClient.cpp:2783-2807
  | .getEdgeDefaultValue space edge field => ⟨"get", [(1, .text (ascii "__default__")), (2, .text (defaultKey space edge field))]⟩
  -- MetaClient.cpp:2810-2825
  | .regConfig items => ⟨"regConfig", [(1, .data items)]⟩
  -- MetaClient.cpp:2828-2849
  | .getConfig module name => ⟨"getConfig", [(1, .item module name none)]⟩
  -- MetaClient.cpp:2852-2874
  | .setConfig module name value => ⟨"setConfig", [(1, .item module name (some value))]⟩
  -- MetaClient.cpp:2877-2892
  | .listConfigs module => ⟨"listConfigs", [(2, .num module)]⟩
  -- MetaClient.cpp:2895-2908
  | .createSnapshot => ⟨"createSnapshot", []⟩
  -- MetaClient.cpp:2911-2925
  | .dropSnapshot name => ⟨"dropSnapshot", [(1, .text name)]⟩
  -- MetaClient.cpp:2928-2941
  | .listSnapshots => ⟨"listSnapshots", []⟩
  -- MetaClient.cpp:2943-2961
  | .addListener space type hosts => ⟨"addListener", [(1, .num space), (2, .num type), (3, .hosts hosts)]⟩
  -- MetaClient.cpp:2963-2979
  | .removeListener space type => ⟨"removeListener", [(1, .num space), (2, .num type)]⟩
  -- MetaClient.cpp:2981-2996
  | .listListener space => ⟨"listListener", [(1, .num space)]⟩
  -- MetaClient.cpp:3229-3246
  | .addZone zone nodes => ⟨"addZone", [(1, .text zone), (2, .hosts nodes)]⟩
  -- MetaClient.cpp:3248-3264
  | .dropZone zone => ⟨"dropZone", [(1, .text zone)]⟩
  -- MetaClient.cpp:3266-3283
  | .addHostIntoZone node zone => ⟨"addHostIntoZone", [(1, .host node), (2, .text zone)]⟩
  -- MetaClient.cpp:3285-3302
  | .dropHostFromZone node zone => ⟨"dropHostFromZone", [(1, .host node), (2, .text zone)]⟩
  -- MetaClient.cpp:3304-3320
  | .getZone zone => ⟨"getZone", [(1, .text zone)]⟩
  -- MetaClient.cpp:3322-3336
  | .listZones => ⟨"listZones", []⟩
  -- MetaClient.cpp:3338-3355
  | .addGroup group zones => ⟨"addGroup", [(1, .text group), (2, .texts zones)]⟩
  -- MetaClient.cpp:3357-3373
  | .dropGroup group => ⟨"dropGroup", [(1, .text group)]⟩
  -- MetaClient.cpp:3375-3392
  | .addZoneIntoGroup zone group => ⟨"addZoneIntoGroup", [(1, .text zone), (2, .text group)]⟩
  -- MetaClient.cpp:3394-3411
  | .dropZoneFromGroup zone group => ⟨"dropZoneFromGroup", [(1, .text zone), (2, .text group)]⟩
  -- MetaClient.cpp:3413-3429
  | .getGroup group => ⟨"getGroup", [(1, .text group)]⟩
  -- MetaClient.cpp:3431-3445
  | .listGroups => ⟨"listGroups", []⟩
  -- MetaClient.cpp:3447-3463
  | .getStatis space => ⟨"getStatis", [(1, .num space)]⟩
  -- MetaClient.cpp:3465-3486
  | .reportTaskFinish job task code statis => ⟨"reportTaskFinish", [(1, .num code), (2, .num job), (3, .num task)] ++ setOpt 4 statis⟩
  -- MetaClient.cpp:3488-3505
  | .signInFTService type clients => ⟨"signInFTService", [(1, .num type), (2, .data clients)]⟩
  -- MetaClient.cpp:3508-3522
  | .signOutFTService => ⟨"signOutFTService", []⟩
  -- MetaClient.cpp:3525-3539
  | .listFTClients => ⟨"listFTClients", []⟩
  -- MetaClient.cpp:3548-3565
  | .createFTIndex name index => ⟨"createFTIndex", [(1, .text name), (2, .data index)]⟩
  -- MetaClient.cpp:3567-3584
  | .dropFTIndex space name => ⟨"dropFTIndex", [(1, .num space), (2, .text name)]⟩
  -- MetaClient.cpp:3586-3600
  | .listFTIndexes => ⟨"listFTIndexes", []⟩
  -- MetaClient.cpp:3656-3676
  | .createSession user graph client => ⟨"createSession", [(1, .text user), (2, .host graph), (3, .text client)]⟩
  -- MetaClient.cpp:3678-3694
  | .updateSessions sessions => ⟨"updateSessions", [(1, .data sessions)]⟩
  -- MetaClient.cpp:3696-3709
  | .listSessions => ⟨"listSessions", []⟩
  -- MetaClient.cpp:3711-3725
  | .getSession id => ⟨"getSession", [(1, .num id)]⟩
  -- MetaClient.cpp:3727-3742
  | .removeSession id => ⟨"removeSession", [(1, .num id)]⟩
  -- MetaClient.cpp:3744-3760
  | .killQuery queries => ⟨"killQuery", [(1, .data queries)]⟩

/-- `union ID` of meta.thrift:54-60. -/
inductive IdKind where | space | tag | edge | index | cluster
deriving DecidableEq, Repr

/-- A successful answer: the id (an `ExecResp`), a number and a list (a `BalanceResp`), everything else. -/
structure Resp where
  id : Option (IdKind × Int)
  number : Int
  payload : Bytes
deriving DecidableEq, Repr

/-- What the caller gets. -/
inductive Answer where
  | done (b : Bool)
  | id (n : Int)
  | number (n : Int)
  | payload (b : Bytes)
  /-- the code of the answer: always that of success -/
  | code (ok : Bool)
  | response (r : Resp)
  /-- the id is of another kind: the accessor of the union throws, and the promise is broken -/
  | threw
deriving DecidableEq, Repr

/-- The accessors `get_space_id`, `get_tag_id`, ... of the union. -/
def Resp.idOf (k : IdKind) (r : Resp) : Answer := match r.id with
  | some (k', n) => if k' = k then .id n else .threw
  | none => .threw

/-- What is made of a successful answer, at the lines given at `wire`.  `get_code() == SUCCEEDED` holds whenever it is asked. -/
def Call.answer : Call → Resp → Answer
  | .submitJob _ _ _, r => .payload r.payload
  | .createSpace _ _, r => r.idOf .space
  | .listSpaces, r => .payload r.payload
  | .getSpace _, r => .payload r.payload
  | .dropSpace _ _, _ => .done true
  | .listHosts _, r => .payload r.payload
  | .listParts _ _, r => .payload r.payload
  | .getPartsAlloc _, r => .payload r.payload
  | .createTagSchema _ _ _ _, r => r.idOf .tag
  | .alterTagSchema _ _ _ _, _ => .done true
  | .listTagSchemas _, r => .payload r.payload
  | .getTagSchema _ _ _, r => .payload r.payload
  | .dropTagSchema _ _ _, _ => .done true
  | .createTagIndex _ _ _ _ _ _, r => r.idOf .index
  | .dropTagIndex _ _ _, _ => .done true
  | .getTagIndex _ _, r => .payload r.payload
  | .listTagIndexes _, r => .payload r.payload
  | .rebuildTagIndex _ _, _ => .done true
  | .listTagIndexStatus _, r => .payload r.payload
  | .createEdgeSchema _ _ _ _, r => r.idOf .edge
  | .alterEdgeSchema _ _ _ _, _ => .done true
  | .listEdgeSchemas _, r => .payload r.payload
  | .getEdgeSchema _ _ _, r => .payload r.payload
  | .dropEdgeSchema _ _ _, _ => .done true
  | .createEdgeIndex _ _ _ _ _ _, r => r.idOf .index
  | .dropEdgeIndex _ _ _, _ => .done true
  | .getEdgeIndex _ _, r => .payload r.payload
  | .listEdgeIndexes _, r => .payload r.payload
  | .rebuildEdgeIndex _ _, _ => .done true
  | .listEdgeIndexStatus _, r => .payload r.payload
  | .createUser _ _ _, _ => .done true
  | .dropUser _ _, _ => .done true
  | .alterUser _ _, _ => .done true
  | .grantToUser _, _ => .done true
  | .revokeFromUser _, _ => .done true
  | .listUsers, r => .payload r.payload
  | .listRoles _, r => .payload r.payload
  | .changePassword _ _ _, _ => .done true
  | .getUserRoles _, r => .payload r.payload
  | .balance _ _ _, r => .number r.number
  | .showBalance _, r => .payload r.payload
  | .balanceLeader, _ => .done true
  | .getTagDefaultValue _ _ _, r => .payload r.payload
  | .getEdgeDefaultValue _ _ _, r => .payload r.payload
  | .regConfig _, _ => .done true
  | .getConfig _ _, r => .payload r.payload
  | .setConfig _ _ _, _ => .done true
  | .listConfigs _, r => .payload r.payload
  | .createSnapshot, _ => .done true
  | .dropSnapshot _, _ => .done true
  | .listSnapshots, r => .payload r.payload
  | .addListener _ _ _, _ => .done true
  | .removeListener _ _, _ => .done true
  | .listListener _, r => .payload r.payload
  | .addZone _ _, _ => .done true
  | .dropZone _, _ => .done true
  | .addHostIntoZone _ _, _ => .done true
  | .dropHostFromZone _ _, _ => .done true
  | .getZone _, r => .payload r.payload
  | .listZones, r => .payload r.payload
  | .addGroup _ _, _ => .done true
  | .dropGroup _, _ => .done true
  | .addZoneIntoGroup _ _, _ => .done true
  | .dropZoneFromGroup _ _, _ => .done true
  | .getGroup _, r => .payload r.payload
  | .listGroups, r => .payload r.payload
  | .getStatis _, r => .payload r.payload
  | .reportTaskFinish _ _ _ _, _ => .code true
  | .signInFTService _ _, _ => .done true
  | .signOutFTService, _ => .done true
  | .listFTClients, r => .payload r.payload
  | .createFTIndex _ _, _ => .done true
  | .dropFTIndex _ _, _ => .done true
  | .listFTIndexes, r => .payload r.payload
  | .createSession _ _ _, r => .payload r.payload
  | .updateSessions _, r => .payload r.payload
  | .listSessions, r => .payload r.payload
  | .getSession _, r => .payload r.payload
  | .removeSession _, r => .response r
  | .killQuery _, r => .response r

/-- A call, as seen from outside; MetaClient.cpp:2829-2831: `getConfig` is refused until the flags are registered. -/
def Call.run (c : Call) (configReady : Bool) (world : Wire → RpcWorld Resp) (limit : Int) (h : MetaHosts) : List (RpcEvent Resp Answer) :=
  match c, configReady with
  | .getConfig _ _, false => [.fulfilled .error]
  | c, _ => getResponse (world c.wire) c.answer true 0 limit h

end Admin
end Meta
end Nebula
