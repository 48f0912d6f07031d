import Verif.Meta.Cache
import Verif.Exec
/-!
# Model of the leader cache of the meta client

`getStorageLeaderFromCache`, `updateStorageLeader`, `invalidStorageLeader`, `loadLeader`
(src/common/clients/meta/MetaClient.cpp) and `LeaderInfo` (MetaClient.h).
-/
namespace Nebula
namespace Meta

/-- A part of a space. -/
abbrev PartKey := Int × Int

/-- MetaClient.h:92-97 `LeaderInfo`. -/
structure LeaderInfo where
  leaderMap : AMap PartKey HostAddr := []
  picked : AMap PartKey Nat := []

/-- MetaClient.cpp:2326-2332: the look-up under the read lock. -/
def leaderLookup (i : LeaderInfo) (k : PartKey) : Option HostAddr := i.leaderMap.find k

/-- MetaClient.cpp:2340-2346: the choice under the write lock.  `none` is the division by zero for a part without hosts.  The index
is below the number of hosts of some part, so that adding one to it does not overflow. -/
def leaderPick (i : LeaderInfo) (k : PartKey) (hosts : List HostAddr) : Option (LeaderInfo × HostAddr) :=
  match hosts[((i.picked.find k).getD 0 + 1) % hosts.length]? with
  | none => none
  | some h => some ({ leaderMap := i.leaderMap.set k h, picked := i.picked.set k (((i.picked.find k).getD 0 + 1) % hosts.length) }, h)

/-- MetaClient.cpp:2350-2356 `updateStorageLeader`. -/
def leaderUpdate (i : LeaderInfo) (k : PartKey) (h : HostAddr) : LeaderInfo := { i with leaderMap := i.leaderMap.set k h }

/-- MetaClient.cpp:2358-2363 `invalidStorageLeader`. -/
def leaderInvalidate (i : LeaderInfo) (k : PartKey) : LeaderInfo := { i with leaderMap := i.leaderMap.erase k }

/-- The part of `HostItem` that `loadLeader` reads (interface/meta.thrift): address and led parts by space name. -/
structure HostItem where
  addr : HostAddr
  leaderParts : List (Bytes × List Int)

/-- MetaClient.cpp:3206-3213: the first position of the host among the peers, 0 if it is none. -/
def leaderIndex (h : HostAddr) : List HostAddr → Nat
  | [] => 0
  | p :: ps => if p = h then 0 else if h ∈ ps then leaderIndex h ps + 1 else 0

/-- MetaClient.cpp:3202-3216: the parts of one space. -/
def loadParts (peers : PartKey → Option (List HostAddr)) (h : HostAddr) (s : Int) : LeaderInfo → List Int → LeaderInfo
  | i, [] => i
  | i, p :: ps => loadParts peers h s ⟨i.leaderMap.set (s, p) h, i.picked.set (s, p) (leaderIndex h ((peers (s, p)).getD []))⟩ ps

/-- MetaClient.cpp:3193-3217: the spaces of one host. -/
def loadSpaces (peers : PartKey → Option (List HostAddr)) (names : AMap Bytes Int) (h : HostAddr) : LeaderInfo → List (Bytes × List Int) → LeaderInfo
  | i, [] => i
  | i, (n, ps) :: es => match names.find n with
    | none => loadSpaces peers names h i es
    | some s => loadSpaces peers names h (loadParts peers h s i ps) es

/-- MetaClient.cpp:3189-3227 `loadLeader`; `peers` is `getPartHostsFromCache`. -/
def loadLeaderFrom (peers : PartKey → Option (List HostAddr)) (names : AMap Bytes Int) : LeaderInfo → List HostItem → LeaderInfo
  | i, [] => i
  | i, it :: its => loadLeaderFrom peers names (loadSpaces peers names it.addr i it.leaderParts) its

def loadLeader (peers : PartKey → Option (List HostAddr)) (names : AMap Bytes Int) (items : List HostItem) : LeaderInfo :=
  loadLeaderFrom peers names {} items

/-- What happens to the leader cache.  A `get` that finds no leader takes two steps: `miss` under the read lock (`hosts` is what
`getPartHostsFromCache` then returns) and `pick` under the write lock. -/
inductive LEv where
  | update (k : PartKey) (h : HostAddr)
  | invalidate (k : PartKey)
  | load (i : LeaderInfo)
  | hit (k : PartKey) (h : HostAddr)
  | miss (t : Nat) (k : PartKey) (hosts : List HostAddr)
  | pick (t : Nat) (k : PartKey) (h : HostAddr)

/-- The cache and the threads between the two steps. -/
structure LState where
  info : LeaderInfo := {}
  waiting : Nat → Option (PartKey × List HostAddr) := fun _ => none

/-- MetaClient.cpp:2320-2363, 3221-3225: every critical section is one step. -/
inductive LStep : LState → LEv → LState → Prop
  | update {s k h} : LStep s (.update k h) { s with info := leaderUpdate s.info k h }
  | invalidate {s k} : LStep s (.invalidate k) { s with info := leaderInvalidate s.info k }
  | load {s i} : LStep s (.load i) { s with info := i }
  | hit {s k h} : leaderLookup s.info k = some h → LStep s (.hit k h) s
  | miss {s t k hosts} : leaderLookup s.info k = none → s.waiting t = none →
      LStep s (.miss t k hosts) { s with waiting := fun t' => if t' = t then some (k, hosts) else s.waiting t' }
  | pick {s t k hosts i h} : s.waiting t = some (k, hosts) → leaderPick s.info k hosts = some (i, h) →
      LStep s (.pick t k h) { info := i, waiting := fun t' => if t' = t then none else s.waiting t' }

end Meta
end Nebula
