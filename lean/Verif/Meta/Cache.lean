import Verif.Map
import Verif.Host.Model
/-!
# Model of the part cache of the meta client

`MetaClient::reverse`, `doGetPartsMap`, `diff`, `doGetListenersMap`, `listenerDiff`,
`getPartHostsFromCache`, `checkPartExistInCache`, `checkSpaceExistInCache`, `partsNum`
(src/common/clients/meta/MetaClient.cpp) and the types in src/common/meta/Common.h.

Only the members of `SpaceInfoCache` these functions read are modelled.
-/
namespace Nebula
namespace Meta

/-- Common.h:18-31 `PartHosts`. -/
structure PartHosts where
  spaceId : Int
  partId : Int
  hosts : List HostAddr
deriving DecidableEq, Repr

/-- Common.h:34-53 `ListenerHosts`; the type is the number of the enumerator. -/
structure ListenerHosts where
  type : Int
  peers : List HostAddr
deriving DecidableEq, Repr

/-- `std::vector<HostAddr>::operator<`: lexicographic, with HostAddr's `<`. -/
def hostsLt : List HostAddr → List HostAddr → Bool
  | _, [] => false
  | [], _ :: _ => true
  | a :: as, b :: bs => if a.lt b then true else if b.lt a then false else hostsLt as bs

/-- Common.h:43-48 `ListenerHosts::operator<`. -/
def ListenerHosts.lt (a b : ListenerHosts) : Bool :=
  if a.type = b.type then hostsLt a.peers b.peers else decide (a.type < b.type)

/-- `PartsAlloc` (MetaClient.h:48): the peers of every part. -/
abbrev PartsAlloc := AMap Int (List HostAddr)

/-- MetaClient.h:60-72 `SpaceInfoCache`. -/
structure SpaceCache where
  partsAlloc : PartsAlloc
  partsOnHost : AMap HostAddr (List Int)
  listeners : AMap HostAddr (List (Int × Int))

/-- MetaClient.h:74 `LocalCache`. -/
abbrev LocalCache := AMap Int SpaceCache

/-- Common.h:55 `PartsMap`. -/
abbrev PartsMap := AMap Int (AMap Int PartHosts)
/-- Common.h:57-58 `ListenersMap`. -/
abbrev ListenersMap := AMap Int (AMap Int (List ListenerHosts))

/-- MetaClient.cpp:554-556: the inner loop of `reverse`. -/
def addHosts (m : AMap HostAddr (List Int)) (part : Int) : List HostAddr → AMap HostAddr (List Int)
  | [] => m
  | h :: hs => addHosts (m.update h [] fun l => l ++ [part]) part hs

/-- MetaClient.cpp:550-559 `reverse`. -/
def reverseFrom (m : AMap HostAddr (List Int)) : PartsAlloc → AMap HostAddr (List Int)
  | [] => m
  | (p, hs) :: ps => reverseFrom (addHosts m p hs) ps

def reverse (ps : PartsAlloc) : AMap HostAddr (List Int) := reverseFrom [] ps

/-- MetaClient.cpp:208-223 (in `loadData`): the part of a space's cache made from its allocation. -/
def loadSpace (alloc : PartsAlloc) (listeners : AMap HostAddr (List (Int × Int))) : SpaceCache :=
  { partsAlloc := alloc, partsOnHost := reverse alloc, listeners := listeners }

/-- MetaClient.cpp:827-834: the loop over the parts on the host; `none` is a failed `CHECK`. -/
def partsOf (space : Int) (c : SpaceCache) : PartsMap → List Int → Option PartsMap
  | m, [] => some m
  | m, p :: ps => match c.partsAlloc.find p with
    | none => none
    | some hosts => partsOf space c (m.update space [] fun l => l.set p ⟨space, p, hosts⟩) ps

/-- MetaClient.cpp:818-837 `doGetPartsMap`. -/
def partsMapFrom (host : HostAddr) : PartsMap → LocalCache → Option PartsMap
  | m, [] => some m
  | m, (s, c) :: cs => match c.partsOnHost.find host with
    | none => partsMapFrom host m cs
    | some ps => match partsOf s c m ps with
      | none => none
      | some m => partsMapFrom host m cs

def doGetPartsMap (host : HostAddr) (cache : LocalCache) : Option PartsMap := partsMapFrom host [] cache

/-- The calls of the change listener (MetaClient.h:115-138). -/
inductive Note where
  | spaceAdded (space : Int) (listener : Bool)
  | spaceRemoved (space : Int) (listener : Bool)
  | partAdded (ph : PartHosts)
  | partUpdated (ph : PartHosts)
  | partRemoved (space part : Int)
  | listenerAdded (space part : Int) (l : ListenerHosts)
  | listenerRemoved (space part : Int) (type : Int)
deriving DecidableEq

/-- MetaClient.cpp:861-876: a part of a space known before. -/
def newPartNotes (oldParts : AMap Int PartHosts) (p : Int × PartHosts) : List Note := match oldParts.find p.1 with
  | none => [.partAdded p.2]
  | some o => if o ≠ p.2 then [.partUpdated p.2] else []

/-- MetaClient.cpp:849-878: one space of the first loop. -/
def newSpaceNotes (old : PartsMap) (e : Int × AMap Int PartHosts) : List Note := match old.find e.1 with
  | none => .spaceAdded e.1 false :: e.2.map fun p => .partAdded p.2
  | some oldParts => e.2.flatMap (newPartNotes oldParts)

/-- MetaClient.cpp:882-901: one space of the second loop. -/
def oldSpaceNotes (new : PartsMap) (e : Int × AMap Int PartHosts) : List Note := match new.find e.1 with
  | none => (e.2.map fun p => .partRemoved e.1 p.1) ++ [.spaceRemoved e.1 false]
  | some newParts => e.2.flatMap fun p => match newParts.find p.1 with
    | none => [.partRemoved e.1 p.1]
    | some _ => []

/-- MetaClient.cpp:848-901: the calls for two part maps. -/
def diffMaps (old new : PartsMap) : List Note := new.flatMap (newSpaceNotes old) ++ old.flatMap (oldSpaceNotes new)

/-- MetaClient.cpp:840-902 `diff` (with a listener registered). -/
def diff (me : HostAddr) (old new : LocalCache) : Option (List Note) := do
  let n ← doGetPartsMap me new
  let o ← doGetPartsMap me old
  some (diffMaps o n)

/-- MetaClient.cpp:3043-3054: the parts of one listener. -/
def listenersOf (space : Int) (c : SpaceCache) : ListenersMap → List (Int × Int) → ListenersMap
  | m, [] => m
  | m, (p, t) :: l => match c.partsAlloc.find p with
    | none => listenersOf space c m l
    | some peers => listenersOf space c (m.update space [] fun x => x.update p [] fun y => y ++ [⟨t, peers⟩]) l

/-- MetaClient.cpp:3039-3055: the listeners of one space. -/
def listenersIn (host : HostAddr) (space : Int) (c : SpaceCache) : ListenersMap → AMap HostAddr (List (Int × Int)) → ListenersMap
  | m, [] => m
  | m, (h, l) :: ls => if host ≠ h then listenersIn host space c m ls else listenersIn host space c (listenersOf space c m l) ls

/-- MetaClient.cpp:3035-3058 `doGetListenersMap`. -/
def listenersMapFrom (host : HostAddr) : ListenersMap → LocalCache → ListenersMap
  | m, [] => m
  | m, (s, c) :: cs => listenersMapFrom host (listenersIn host s c m c.listeners) cs

def doGetListenersMap (host : HostAddr) (cache : LocalCache) : ListenersMap := listenersMapFrom host [] cache

/-- `std::sort` (a stable sort is one possible result; equal elements cannot be told apart here). -/
def sortL (l : List ListenerHosts) : List ListenerHosts := l.mergeSort fun a b => !(b.lt a)

/-- `std::set_difference` on sorted ranges. -/
def setDiff : List ListenerHosts → List ListenerHosts → List ListenerHosts
  | [], _ => []
  | a :: as, [] => a :: as
  | a :: as, b :: bs =>
    if a.lt b then a :: setDiff as (b :: bs)
    else if b.lt a then setDiff (a :: as) bs
    else setDiff as bs
termination_by a b => a.length + b.length

/-- MetaClient.cpp:933-954: a part of a space known before. -/
def newListenerNotes (space : Int) (oldParts : AMap Int (List ListenerHosts)) (p : Int × List ListenerHosts) : List Note :=
  match oldParts.find p.1 with
  | none => p.2.map (.listenerAdded space p.1)
  | some o => (setDiff (sortL p.2) (sortL o)).map (.listenerAdded space p.1)

/-- MetaClient.cpp:916-956: one space of the first loop. -/
def newListenerSpace (old : ListenersMap) (e : Int × AMap Int (List ListenerHosts)) : List Note := match old.find e.1 with
  | none => .spaceAdded e.1 true :: e.2.flatMap fun p => p.2.map (.listenerAdded e.1 p.1)
  | some oldParts => e.2.flatMap (newListenerNotes e.1 oldParts)

/-- MetaClient.cpp:976-1001. -/
def oldListenerNotes (space : Int) (newParts : AMap Int (List ListenerHosts)) (p : Int × List ListenerHosts) : List Note :=
  match newParts.find p.1 with
  | none => p.2.map fun i => .listenerRemoved space p.1 i.type
  | some n => (setDiff (sortL p.2) (sortL n)).map fun i => .listenerRemoved space p.1 i.type

/-- MetaClient.cpp:963-1005: one space of the second loop. -/
def oldListenerSpace (new : ListenersMap) (e : Int × AMap Int (List ListenerHosts)) : List Note := match new.find e.1 with
  | none => (e.2.flatMap fun p => p.2.map fun i => .listenerRemoved e.1 p.1 i.type) ++ [.spaceRemoved e.1 true]
  | some newParts => e.2.flatMap (oldListenerNotes e.1 newParts)

/-- MetaClient.cpp:916-1005 (line 911-913, nothing for equal maps, is left out: it saves only time). -/
def listenerDiffMaps (old new : ListenersMap) : List Note :=
  new.flatMap (newListenerSpace old) ++ old.flatMap (oldListenerSpace new)

/-- MetaClient.cpp:904-1006 `listenerDiff` (with a listener registered). -/
def listenerDiff (me : HostAddr) (old new : LocalCache) : List Note :=
  listenerDiffMaps (doGetListenersMap me old) (doGetListenersMap me new)

/-- MetaClient.cpp:1447-1466 `getPartHostsFromCache`; `none` is an error status. -/
def getPartHosts (cache : LocalCache) (space part : Int) : Option (List HostAddr) := match cache.find space with
  | none => none
  | some c => c.partsAlloc.find part

inductive Found where
  | ok | partNotFound | hostNotFound | spaceNotFound
deriving DecidableEq, Repr

/-- MetaClient.cpp:1469-1488 `checkPartExistInCache`. -/
def checkPart (cache : LocalCache) (host : HostAddr) (space part : Int) : Found := match cache.find space with
  | none => .spaceNotFound
  | some c => match c.partsOnHost.find host with
    | none => .hostNotFound
    | some ps => if ps.any fun p => p == part then .ok else .partNotFound

/-- MetaClient.cpp:1491-1504 `checkSpaceExistInCache`. -/
def checkSpace (cache : LocalCache) (host : HostAddr) (space : Int) : Found := match cache.find space with
  | none => .spaceNotFound
  | some c => match c.partsOnHost.find host with
    | none => .partNotFound
    | some ps => if !ps.isEmpty then .ok else .partNotFound

/-- MetaClient.cpp:1507-1514 `partsNum`. -/
def partsNum (cache : LocalCache) (space : Int) : Option Int := (cache.find space).map fun c => (c.partsAlloc.length : Int)

end Meta
end Nebula
