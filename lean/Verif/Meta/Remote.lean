import Verif.Meta.Cache
/-!
# Model of the listener lookups of the meta client

`MetaClient::loadListeners`, `getListenersBySpaceHostFromCache`, `getListenersByHostFromCache`,
`getListenerHostsBySpacePartType`, `getListenerHostTypeBySpacePartType`, `loadRemoteListeners`,
`checkTagIndexed`, `checkEdgeIndexed` (src/common/clients/meta/MetaClient.cpp).
-/
namespace Nebula
namespace Meta

/-- One entry of the answer of `listListener` (`cpp2::ListenerInfo`); the status of the listener is not read by the client. -/
structure Listed where
  type : Int
  host : HostAddr
  part : Int
deriving DecidableEq, Repr

/-- The statuses these functions answer with. -/
inductive LookErr where
  | notReady
  | spaceNotFound
  | listenerNotFound
  | indexNotFound
deriving DecidableEq, Repr

/-- MetaClient.cpp:484-488: the loop of `loadListeners`. -/
def loadListenersFrom : AMap HostAddr (List (Int × Int)) → List Listed → AMap HostAddr (List (Int × Int))
  | m, [] => m
  | m, l :: ls => loadListenersFrom (m.update l.host [] fun x => x ++ [(l.part, l.type)]) ls

/-- MetaClient.cpp:477-491 `loadListeners` after `listListener` succeeded. -/
def loadListeners (ls : List Listed) : AMap HostAddr (List (Int × Int)) := loadListenersFrom [] ls

/-- MetaClient.cpp:3007-3025 `getListenersBySpaceHostFromCache`. -/
def listenersBySpaceHost (ready : Bool) (c : LocalCache) (space : Int) (host : HostAddr) : Except LookErr (List (Int × Int)) :=
  if !ready then .error .notReady
  else match c.find space with
    | none => .error .spaceNotFound
    | some x => match x.listeners.find host with
      | none => .error .listenerNotFound
      | some l => .ok l

/-- MetaClient.cpp:3027-3033 `getListenersByHostFromCache`. -/
def listenersByHost (ready : Bool) (c : LocalCache) (host : HostAddr) : Except LookErr ListenersMap :=
  if !ready then .error .notReady else .ok (doGetListenersMap host c)

/-- MetaClient.cpp:3072-3078: the loops of `getListenerHostsBySpacePartType`. -/
def firstListener (part type : Int) : AMap HostAddr (List (Int × Int)) → Option HostAddr
  | [] => none
  | (h, l) :: ls => if l.any fun e => decide (e.1 = part) && decide (e.2 = type) then some h else firstListener part type ls

/-- MetaClient.cpp:3060-3080 `getListenerHostsBySpacePartType`. -/
def listenerHost (ready : Bool) (c : LocalCache) (space part type : Int) : Except LookErr HostAddr :=
  if !ready then .error .notReady
  else match c.find space with
    | none => .error .spaceNotFound
    | some x => match firstListener part type x.listeners with
      | none => .error .listenerNotFound
      | some h => .ok h

/-- MetaClient.cpp:3094-3100: the loops of `getListenerHostTypeBySpacePartType`. -/
def allListeners (part : Int) : AMap HostAddr (List (Int × Int)) → List (HostAddr × Int)
  | [] => []
  | (h, l) :: ls => ((l.filter fun e => decide (e.1 = part)).map fun e => (h, e.2)) ++ allListeners part ls

/-- MetaClient.cpp:3082-3105 `getListenerHostTypeBySpacePartType`. -/
def listenerHostTypes (ready : Bool) (c : LocalCache) (space part : Int) : Except LookErr (List (HostAddr × Int)) :=
  if !ready then .error .notReady
  else match c.find space with
    | none => .error .spaceNotFound
    | some x => match allListeners part x.listeners with
      | [] => .error .listenerNotFound
      | items => .ok items

/-- A call of `onCheckRemoteListeners` (MetaClient.h:134-137). -/
structure RemoteNote where
  space : Int
  part : Int
  hosts : List HostAddr
deriving DecidableEq, Repr

/-- MetaClient.cpp:1017-1024: the body of the inner loop for one part. -/
def remoteNote (ready : Bool) (c : LocalCache) (space part : Int) : RemoteNote :=
  ⟨space, part, match listenerHostTypes ready c space part with
    | .ok l => l.map Prod.fst
    | .error _ => []⟩

/-- MetaClient.cpp:1008-1027 `loadRemoteListeners` (with a listener registered).  Every lookup takes the cache lock anew, so
another thread can replace the cache in between: `now i` is the cache (and `ready_`) the `i`-th lookup sees, `start` the cache that
`getPartsMapFromCache` sees; `none` is a failed `CHECK`. -/
def loadRemoteListeners (me : HostAddr) (start : LocalCache) (now : Nat → Bool × LocalCache) : Option (List RemoteNote) :=
  (doGetPartsMap me start).map fun parts =>
    ((parts.flatMap fun e => e.2.map fun p => (e.1, p.1)).zipIdx).map fun (k, i) => remoteNote (now i).1 (now i).2 k.1 k.2

/-- MetaClient.cpp:520-532 `checkTagIndexed` and 535-547 `checkEdgeIndexed`: the same code on the two index maps of the space;
`indexes` gives the map of a space. -/
def checkIndexed {I : Type} (indexes : AMap Int (AMap Int I)) (space index : Int) : Except LookErr Unit :=
  match indexes.find space with
  | some m => match m.find index with
    | some _ => .ok ()
    | none => .error .indexNotFound
  | none => .error .spaceNotFound

end Meta
end Nebula
