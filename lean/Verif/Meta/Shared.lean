import Verif.Locks.Model

/-!
# The data the meta client's threads share, and the locks they hold on it

`src/common/clients/meta/MetaClient.{h,cpp}`.  Each function is reduced to its accesses to the members of
the client and to the locks it holds meanwhile; what it computes is modelled elsewhere (`Verif.Meta.*`).
Left out: members that are atomic (`ready_`, `configReady_`, `clusterId_`) or only written before any other
thread exists (`addrs_`, `options_`, `ioThreadPool_`, `clientsMan_`, `gflagsModule_`, `gflagsDeclared_`),
the contents of a space's entry (`SpaceInfoCache`: filled before it is published, then only read through
`localCache_`, whose accesses stand for it), the command line flags, and what the registered listener does
when it is called.  Thread 0 is the thread that refreshes the cache: the one that calls `waitForMetadReady`
until it starts the worker, then the worker (`bgThread_`), to which `heartBeatThreadFunc` and the `loadData`
of `refreshCache` are queued.  The answer to a remote call arrives on a thread of the io pool
(`Fn.remoteReply`); the caller that waits for it does nothing meanwhile.
-/
namespace Nebula.Meta.Shared
open Nebula.Locks

/-- The locks.  MetaClient.h:736, 741, 747, 770, 774, 780. -/
inductive Lock | cache | host | leaders | leaderIds | listener | config
  deriving DecidableEq, Repr

/-- The shared members.  MetaClient.h:735-787. -/
inductive Var
  /-- `localCache_`. -/
  | spaces
  /-- `spaceIndexByName_`. -/
  | spaceNames
  /-- `spaceTagIndexByName_`. -/
  | tagNames
  /-- `spaceEdgeIndexByName_`. -/
  | edgeNames
  /-- `spaceEdgeIndexByType_`. -/
  | edgeTypes
  /-- `spaceTagIndexById_`. -/
  | tagIds
  /-- `spaceNewestTagVerMap_`. -/
  | tagVersions
  /-- `spaceNewestEdgeVerMap_`. -/
  | edgeVersions
  /-- `spaceAllEdgeMap_`. -/
  | allEdges
  /-- `userRolesMap_`. -/
  | userRoles
  /-- `userPasswordMap_`. -/
  | passwords
  /-- `tagNameIndexMap_`. -/
  | tagIndexNames
  /-- `edgeNameIndexMap_`. -/
  | edgeIndexNames
  /-- `fulltextClientList_`. -/
  | ftClients
  /-- `fulltextIndexMap_`. -/
  | ftIndexes
  /-- `storageHosts_`. -/
  | storageHosts
  /-- `active_`. -/
  | active
  /-- `leader_`: the leader of the meta service. -/
  | leader
  /-- `leadersInfo_`: the leaders of the parts. -/
  | leadersInfo
  /-- `leaderIds_`: the parts this host leads. -/
  | leaderIds
  /-- `listener_`. -/
  | listener
  /-- `metaConfigMap_`. -/
  | config
  /-- `metadLastUpdateTime_`. -/
  | serverTime
  /-- `localLastUpdateTime_`. -/
  | localTime
  /-- `isRunning_`. -/
  | running
  /-- `bgThread_`: the pointer to the worker. -/
  | worker
  deriving DecidableEq, Repr

abbrev MCode := Code Lock Var

/-- A read. -/
def rd (v : Var) : MCode := .acc .rd v
/-- A write. -/
def wr (v : Var) : MCode := .acc .wr v
/-- `ReadHolder`. -/
def reading (l : Lock) (c : MCode) : MCode := .hold .rd l c
/-- `WriteHolder`. -/
def writing (l : Lock) (c : MCode) : MCode := .hold .wr l c
/-- One after the other. -/
def all : List MCode → MCode
  | [] => .skip
  | [c] => c
  | c :: cs => .seq c (all cs)
/-- Done or not, as the function decides. -/
def opt (c : MCode) : MCode := .alt c .skip

/-- A look into one member under the lock of the cache; some of the functions return before it when the
client is not ready. -/
def look (v : Var) : MCode := opt (reading .cache (rd v))

/-- `updateActive`.  MetaClient.h:681-684. -/
def updateActive : MCode := writing .host (wr .active)
/-- `updateLeader`.  MetaClient.h:686-693. -/
def updateLeader : MCode := writing .host (wr .leader)

/-- The part of `getResponse` that the caller runs: the address to send to.  MetaClient.cpp:574-579. -/
def send : MCode := reading .host (.alt (rd .leader) (rd .active))
/-- The answer: another address is taken when the call failed or the leader changed, and the request may be
sent again.  MetaClient.cpp:603-667. -/
def reply : MCode := .seq (opt (.alt updateLeader updateActive)) (opt send)

/-- `heartbeat`, with the reply's write of `metadLastUpdateTime_`: the caller waits for it.  The address is
only read when verbose logging is on.  MetaClient.cpp:2467-2523. -/
def heartbeat : MCode :=
  all [opt (.seq (rd .listener) (opt (all [rd .listener, rd .leaderIds, opt (writing .leaderIds (wr .leaderIds))]))),
    opt (rd .leader), send, opt (wr .serverTime)]

/-- `loadUsersAndRoles`.  MetaClient.cpp:144-167. -/
def loadUsersAndRoles : MCode :=
  all [send, .star send, opt (writing .cache (all [wr .userRoles, wr .passwords]))]
/-- `loadFulltextClients`.  MetaClient.cpp:493-504. -/
def loadFulltextClients : MCode := .seq send (opt (writing .cache (wr .ftClients)))
/-- `loadFulltextIndexes`.  MetaClient.cpp:506-517. -/
def loadFulltextIndexes : MCode := .seq send (opt (writing .cache (wr .ftIndexes)))
/-- `loadIndexes`: the names of the indexes go straight into the member maps.  MetaClient.cpp:437-475. -/
def loadIndexes : MCode := all [send, send, .star (wr .tagIndexNames), .star (wr .edgeIndexNames)]
/-- What `loadData` does for one space: the calls of `getPartsAlloc`, `loadSchemas`, `loadListeners` and
`getSpace`, and `loadIndexes`.  MetaClient.cpp:207-261, 302-434, 478-491. -/
def loadSpace : MCode := all [send, opt (all [send, send, opt loadIndexes, opt send, opt send])]
/-- `getPartHostsFromCache`.  MetaClient.cpp:1447-1466. -/
def getPartHosts : MCode := reading .cache (rd .spaces)
/-- `getPartsMapFromCache`.  MetaClient.cpp:1441-1444. -/
def getPartsMap : MCode := reading .cache (rd .spaces)
/-- `loadLeader(hostItems, spaceIndexByName_)`.  MetaClient.cpp:276, 3189-3227. -/
def loadLeader : MCode :=
  .seq (.star (.seq (rd .spaceNames) (.star getPartHosts))) (writing .leaders (wr .leadersInfo))
/-- The replacement of the cache.  MetaClient.cpp:278-292. -/
def replaceCache : MCode :=
  writing .cache (all [rd .spaces, wr .spaces, wr .spaceNames, wr .tagNames, wr .edgeNames, wr .tagVersions,
    wr .edgeVersions, wr .edgeTypes, wr .tagIds, wr .allEdges, wr .storageHosts])
/-- `diff(oldCache, localCache_)`.  MetaClient.cpp:294, 840-902. -/
def diff : MCode := writing .listener (.seq (rd .listener) (opt (.seq (rd .spaces) (.star (rd .listener)))))
/-- `listenerDiff(oldCache, localCache_)`.  MetaClient.cpp:295, 904-1006. -/
def listenerDiff : MCode := writing .listener (.seq (rd .listener) (opt (.seq (rd .spaces) (.star (rd .listener)))))
/-- `getListenerHostTypeBySpacePartType`.  MetaClient.cpp:3082-3104. -/
def getListenerHostType : MCode := look .spaces
/-- `loadRemoteListeners`.  MetaClient.cpp:1008-1029. -/
def loadRemoteListeners : MCode :=
  writing .listener (.seq (rd .listener) (opt (.seq getPartsMap (.star (.seq getListenerHostType (rd .listener))))))
/-- `loadData`.  MetaClient.cpp:171-299. -/
def loadData : MCode :=
  opt (.seq loadUsersAndRoles (opt (.seq loadFulltextClients (opt (.seq loadFulltextIndexes (opt
    (.seq send (opt (.seq (.star loadSpace) (opt
      (all [send, loadLeader, replaceCache, diff, listenerDiff, loadRemoteListeners])))))))))))

/-- `updateNestedGflags`.  MetaClient.cpp:3171-3181. -/
def updateNestedGflags : MCode := reading .cache (.seq (rd .spaces) (.star (rd .listener)))
/-- `updateGflagsValue`.  MetaClient.cpp:3142-3168. -/
def updateGflagsValue : MCode := opt (.seq (rd .listener) (opt updateNestedGflags))
/-- `loadCfg`, with `registerCfg`.  MetaClient.cpp:2998-3005, 3107-3138. -/
def loadCfg : MCode :=
  .seq (opt send) (opt (.seq send (opt (writing .config
    (.star (.seq (rd .config) (opt (.seq updateGflagsValue (wr .config)))))))))

/-- `localLastUpdateTime_ = metadLastUpdateTime_`.  MetaClient.cpp:75-77, 137-139. -/
def keepTime : MCode := .seq (rd .serverTime) (wr .localTime)
/-- `isMetadReady`.  MetaClient.cpp:62-79. -/
def isMetadReady : MCode := .seq heartbeat (opt (all [loadData, opt loadCfg, opt keepTime]))
/-- `waitForMetadReady`.  MetaClient.cpp:81-105. -/
def waitForMetadReady : MCode :=
  all [wr .running, .star (.seq isMetadReady (opt (rd .running))), rd .running, opt (.seq (rd .worker) (rd .worker))]
/-- `heartBeatThreadFunc`.  MetaClient.cpp:118-141. -/
def heartBeatThreadFunc : MCode :=
  all [heartbeat, opt (all [rd .localTime, rd .serverTime, opt (all [loadData, opt loadCfg, opt keepTime])]), rd .worker]
/-- `stop`.  MetaClient.cpp:108-115. -/
def stop : MCode := all [rd .worker, opt (all [rd .worker, rd .worker, wr .worker]), wr .running]

/-- `getTagIndexFromCache`.  MetaClient.cpp:2193-2213. -/
def getTagIndex : MCode := look .spaces
/-- `getEdgeIndexFromCache`.  MetaClient.cpp:2233-2253. -/
def getEdgeIndex : MCode := look .spaces
/-- `getTagIndexByNameFromCache`.  MetaClient.cpp:2155-2171. -/
def getTagIndexByName : MCode := opt (.seq (rd .tagIndexNames) (opt getTagIndex))
/-- `getEdgeIndexByNameFromCache`.  MetaClient.cpp:2174-2190. -/
def getEdgeIndexByName : MCode := opt (.seq (rd .edgeIndexNames) (opt getEdgeIndex))
/-- `getStorageLeaderFromCache`.  MetaClient.cpp:2320-2348. -/
def getStorageLeader : MCode :=
  opt (.seq (reading .leaders (rd .leadersInfo)) (opt (.seq getPartHosts (opt
    (writing .leaders (.seq (rd .leadersInfo) (wr .leadersInfo)))))))
/-- `getFTIndexByNameFromCache`: `operator[]` of a name that is not there inserts it, and so writes.
MetaClient.cpp:3643-3654. -/
def getFTIndexByName : MCode :=
  opt (reading .cache (all [rd .ftIndexes, opt (rd .ftIndexes), .alt (rd .ftIndexes) (wr .ftIndexes)]))

/-- The functions of the client that touch shared members, and the tasks of its worker. -/
inductive Fn
  | checkTagIndexed | checkEdgeIndexed
  | getSpaceIdByNameFromCache | getSpaceNameByIdFromCache | getTagIDByNameFromCache | getTagNameByIdFromCache
  | getEdgeTypeByNameFromCache | getEdgeNameByTypeFromCache | getAllEdgeFromCache
  | getPartsMapFromCache | getPartHostsFromCache | checkPartExistInCache | checkSpaceExistInCache | partsNum
  | getSpaceVidLen | getSpaceVidType | getSpaceDesc
  | getTagSchemaFromCache | getEdgeSchemaFromCache | getAllVerTagSchema | getAllLatestVerTagSchema
  | getAllVerEdgeSchema | getAllLatestVerEdgeSchemaFromCache
  | getTagIndexByNameFromCache | getEdgeIndexByNameFromCache | getTagIndexFromCache | getEdgeIndexFromCache
  | getRelatedTagIDByIndexNameFromCache | getRelatedEdgeTypeByIndexNameFromCache
  | getTagIndexesFromCache | getEdgeIndexesFromCache
  | getStorageLeaderFromCache | updateStorageLeader | invalidStorageLeader | getLeaderInfo
  | getRolesByUserFromCache | authCheckFromCache | checkShadowAccountFromCache | getTermFromCache
  | getStorageHosts | getLatestTagVersionFromCache | getLatestEdgeVersionFromCache
  | getListenersBySpaceHostFromCache | getListenersByHostFromCache | getListenerHostsBySpacePartType
  | getListenerHostTypeBySpacePartType
  | getFTClientsFromCache | getFTIndexesFromCache | getFTIndexBySpaceFromCache | getFTIndexBySpaceSchemaFromCache
  | getFTIndexByNameFromCache
  | registerListener | unRegisterListener
  /-- any of the functions that send one request to the meta service and nothing else. -/
  | remoteCall
  /-- the arrival of an answer, on a thread of the io pool. -/
  | remoteReply
  | download | ingest | refreshCache | stop
  /-- `isMetadReady` called by another thread than the one that refreshes the cache. -/
  | isMetadReady
  | waitForMetadReady
  /-- `heartBeatThreadFunc`, on the worker. -/
  | heartBeatTask
  /-- the `loadData` that `refreshCache` queues, on the worker. -/
  | refreshTask
  deriving DecidableEq, Repr

/-- What each of them does.  MetaClient.cpp:520-547, 1200-1293, 1441-1514, 1950-2107, 2155-2463, 3007-3104,
3183-3186, 3541-3654, 3762-3797; MetaClient.h:192-201. -/
def body : Fn → MCode
  | .checkTagIndexed => reading .cache (rd .spaces)
  | .checkEdgeIndexed => reading .cache (rd .spaces)
  | .getSpaceIdByNameFromCache => look .spaceNames
  | .getSpaceNameByIdFromCache => look .spaces
  | .getTagIDByNameFromCache => look .tagNames
  | .getTagNameByIdFromCache => look .tagIds
  | .getEdgeTypeByNameFromCache => look .edgeNames
  | .getEdgeNameByTypeFromCache => look .edgeTypes
  | .getAllEdgeFromCache => look .allEdges
  | .getPartsMapFromCache => getPartsMap
  | .getPartHostsFromCache => getPartHosts
  | .checkPartExistInCache => reading .cache (rd .spaces)
  | .checkSpaceExistInCache => reading .cache (rd .spaces)
  | .partsNum => reading .cache (rd .spaces)
  | .getSpaceVidLen => look .spaces
  | .getSpaceVidType => look .spaces
  | .getSpaceDesc => look .spaces
  | .getTagSchemaFromCache => look .spaces
  | .getEdgeSchemaFromCache => look .spaces
  | .getAllVerTagSchema => look .spaces
  | .getAllLatestVerTagSchema => look .spaces
  | .getAllVerEdgeSchema => look .spaces
  | .getAllLatestVerEdgeSchemaFromCache => look .spaces
  | .getTagIndexByNameFromCache => getTagIndexByName
  | .getEdgeIndexByNameFromCache => getEdgeIndexByName
  | .getTagIndexFromCache => getTagIndex
  | .getEdgeIndexFromCache => getEdgeIndex
  | .getRelatedTagIDByIndexNameFromCache => opt getTagIndexByName
  | .getRelatedEdgeTypeByIndexNameFromCache => opt getEdgeIndexByName
  | .getTagIndexesFromCache => look .spaces
  | .getEdgeIndexesFromCache => look .spaces
  | .getStorageLeaderFromCache => getStorageLeader
  | .updateStorageLeader => writing .leaders (wr .leadersInfo)
  | .invalidStorageLeader => writing .leaders (wr .leadersInfo)
  | .getLeaderInfo => opt (reading .leaders (rd .leadersInfo))
  | .getRolesByUserFromCache => look .userRoles
  | .authCheckFromCache => look .passwords
  | .checkShadowAccountFromCache => look .passwords
  | .getTermFromCache => reading .cache (rd .spaces)
  | .getStorageHosts => look .storageHosts
  | .getLatestTagVersionFromCache => look .tagVersions
  | .getLatestEdgeVersionFromCache => look .edgeVersions
  | .getListenersBySpaceHostFromCache => look .spaces
  | .getListenersByHostFromCache => look .spaces
  | .getListenerHostsBySpacePartType => look .spaces
  | .getListenerHostTypeBySpacePartType => getListenerHostType
  | .getFTClientsFromCache => opt (rd .ftClients)
  | .getFTIndexesFromCache => look .ftIndexes
  | .getFTIndexBySpaceFromCache => look .ftIndexes
  | .getFTIndexBySpaceSchemaFromCache => look .ftIndexes
  | .getFTIndexByNameFromCache => getFTIndexByName
  | .registerListener => writing .listener (.seq (rd .listener) (wr .listener))
  | .unRegisterListener => writing .listener (wr .listener)
  | .remoteCall => send
  | .remoteReply => reply
  | .download => rd .leader
  | .ingest => rd .leader
  | .refreshCache => rd .worker
  | .stop => Shared.stop
  | .isMetadReady => Shared.isMetadReady
  | .waitForMetadReady => Shared.waitForMetadReady
  | .heartBeatTask => heartBeatThreadFunc
  | .refreshTask => loadData

/-- Which of them run only on the thread that refreshes the cache. -/
def own : Fn → Bool
  | .waitForMetadReady | .heartBeatTask | .refreshTask => true
  | _ => false

/-- The client. -/
def client : System Lock Var Fn := ⟨body, own⟩

end Nebula.Meta.Shared
