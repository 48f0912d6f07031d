import Verif.Locks.Model

/-!
# The other objects that threads share: statistics, caches, pools, latches, workers, answers

`src/common/stats/StatsManager.cpp`, `base/ConcurrentLRUCache.h`, `base/ObjectPool.h`,
`concurrent/{Latch,Barrier}.cpp`, `thread/GenericWorker.{h,cpp}` and the `StorageRpcResponse` of
`clients/storage/StorageClientBase.h`, each reduced to its accesses to shared members and to the locks held
meanwhile.  One object of each class: several are independent of each other.  A `std::mutex` and a
`folly::SpinLock` are locks that are only held for writing.  Left out: constructors and destructors (no other
thread may use the object then), atomics, what the tasks of a worker do, and the wait on a condition
variable, which is an unlock and a lock again.  Thread 0 is the thread of the worker.
-/
namespace Nebula.Locks.Objects

/-- A counter of the statistics: a series or a histogram, by its place in the list. -/
inductive Counter
  | series (i : Nat)
  | histo (i : Nat)
  deriving DecidableEq

/-- The locks. -/
inductive Lock
  /-- `nameMapLock_`.  StatsManager.h:196. -/
  | names
  /-- the mutex beside each counter.  StatsManager.h:200-211. -/
  | counter (c : Counter)
  /-- `Bucket::lock_`.  ConcurrentLRUCache.h:143. -/
  | bucket (i : Nat)
  /-- `ObjectPool::lock_`.  ObjectPool.h:72. -/
  | pool
  /-- `Latch::lock_`.  Latch.h:57. -/
  | latch
  /-- `Barrier::lock_`.  Barrier.h:46. -/
  | barrier
  /-- `GenericWorker::lock_`.  GenericWorker.h:167. -/
  | worker
  /-- `StorageRpcResponse::lock_`.  StorageClientBase.h:105. -/
  | answer
  deriving DecidableEq

/-- The shared members. -/
inductive Var
  /-- `nameMap_`.  StatsManager.h:197. -/
  | nameMap
  /-- `stats_`: the list.  StatsManager.h:200-204. -/
  | seriesList
  /-- `histograms_`: the list.  StatsManager.h:207-211. -/
  | histoList
  /-- the values of one counter. -/
  | values (c : Counter)
  /-- `map_` and `list_` of a bucket.  ConcurrentLRUCache.h:294-295. -/
  | bucket (i : Nat)
  /-- `total_`, `hits_` and `evicts_` of a bucket.  ConcurrentLRUCache.h:297-299. -/
  | tally (i : Nat)
  /-- `objects_`.  ObjectPool.h:70. -/
  | objects
  /-- `counter_`.  Latch.h:56. -/
  | latchCount
  /-- `ages_` and `generation_`.  Barrier.h:43-45. -/
  | barrierCount
  /-- `pendingTasks_`.  GenericWorker.h:168. -/
  | tasks
  /-- `pendingTimers_` and `nextTimerId_`.  GenericWorker.h:163, 170. -/
  | timers
  /-- `purgingingTimers_`.  GenericWorker.h:171. -/
  | purges
  /-- `activeTimers_`.  GenericWorker.h:172. -/
  | active
  /-- `evbase_`, `evfd_` and `notifier_`.  GenericWorker.h:164-166. -/
  | events
  /-- `thread_`.  GenericWorker.h:173. -/
  | thread
  /-- `result_` and `failedReqs_`.  StorageClientBase.h:107-109. -/
  | result
  /-- `failedParts_`.  StorageClientBase.h:110. -/
  | failedParts
  /-- `maxLatency_`.  StorageClientBase.h:111. -/
  | maxLatency
  /-- `responses_`.  StorageClientBase.h:112. -/
  | responses
  /-- `hostLatency_`.  StorageClientBase.h:113. -/
  | hostLatency
  deriving DecidableEq

abbrev OCode := Code Lock Var

def rd (v : Var) : OCode := .acc .rd v
def wr (v : Var) : OCode := .acc .wr v
/-- A block under a mutex, or under a `WriteHolder`. -/
def locking (l : Lock) (c : OCode) : OCode := .hold .wr l c
/-- A block under a `ReadHolder`. -/
def reading (l : Lock) (c : OCode) : OCode := .hold .rd l c
/-- One after the other. -/
def all : List OCode → OCode
  | [] => .skip
  | c :: cs => .seq c (all cs)
/-- Done or not, as the function decides. -/
def opt (c : OCode) : OCode := .alt c .skip

/-- The list a counter is in. -/
def Counter.list : Counter → Var
  | .series _ => .seriesList
  | .histo _ => .histoList

/-- `addValue`; `readStats` and `readHisto` by id, which also move the counter to the present.
StatsManager.cpp:162-182, 347-373, 400-419. -/
def useCounter (c : Counter) : OCode :=
  .seq (rd c.list) (opt (locking (.counter c) (all [rd c.list, wr (.values c)])))
/-- `readStats` and `readHisto` by name.  StatsManager.cpp:377-395, 423-441. -/
def useByName (c : Counter) : OCode := .seq (reading .names (rd .nameMap)) (opt (useCounter c))
/-- `registerStats`.  StatsManager.cpp:70-109. -/
def registerStats : OCode :=
  locking .names (.seq (rd .nameMap) (.alt (wr .nameMap) (all [wr .seriesList, wr .nameMap])))
/-- `registerHisto`.  StatsManager.cpp:115-157. -/
def registerHisto : OCode :=
  locking .names (.seq (rd .nameMap) (.alt (wr .nameMap) (all [wr .histoList, wr .nameMap])))
/-- `readAllValue`: walks the map and reads the counters it finds.  StatsManager.cpp:260-343. -/
def readAllValue (cs : List Counter) : OCode :=
  .seq (rd .nameMap) (all (cs.map fun c => .seq (rd .nameMap) (.star (useCounter c))))

/-- `Bucket::contains`.  ConcurrentLRUCache.h:104-107. -/
def cacheContains (i : Nat) : OCode := locking (.bucket i) (rd (.bucket i))
/-- `Bucket::insert`, `evict`.  ConcurrentLRUCache.h:109-112, 133-136, 208-227, 252-259. -/
def cacheChange (i : Nat) : OCode := locking (.bucket i) (all [rd (.bucket i), opt (all [wr (.bucket i), opt (wr (.tally i))])])
/-- `Bucket::get`, `putIfAbsent`.  ConcurrentLRUCache.h:114-131, 229-249. -/
def cacheGet (i : Nat) : OCode := locking (.bucket i) (all [wr (.tally i), rd (.bucket i), opt (all [wr (.bucket i), opt (wr (.tally i))])])
/-- `clear`, over the buckets.  ConcurrentLRUCache.h:65-69, 138-141, 263-269. -/
def cacheClear (n : Nat) : OCode :=
  all ((List.range n).map fun i => locking (.bucket i) (all [wr (.bucket i), wr (.tally i)]))
/-- `total`, `hits` and `evicts`, over the buckets, which they do not lock.  ConcurrentLRUCache.h:71-93. -/
def cacheCounts (n : Nat) : OCode := all ((List.range n).map fun i => rd (.tally i))

/-- `notify`.  GenericWorker.cpp:92-100. -/
def notify : OCode := rd .events
/-- `purgeTimerInternal`.  GenericWorker.cpp:175-181. -/
def purgeTimerInternal : OCode := .seq (rd .active) (opt (wr .active))
/-- `onNotify`, on the thread of the worker.  GenericWorker.cpp:102-155. -/
def onNotify : OCode :=
  all [opt (rd .events), locking .worker (all [rd .tasks, wr .tasks]),
    locking .worker (all [rd .timers, wr .timers]), .star (all [rd .events, wr .active]),
    locking .worker (all [rd .purges, wr .purges]), .star purgeTimerInternal]
/-- A timer goes off, on the thread of the worker.  GenericWorker.cpp:123-130. -/
def onTimer : OCode := .seq (rd .active) (opt purgeTimerInternal)

/-- The functions of the objects. -/
inductive Fn
  | registerStats | registerHisto
  /-- `addValue`. -/
  | addValue (c : Counter)
  /-- `readStats` / `readHisto` by id. -/
  | readById (c : Counter)
  /-- `readStats` / `readHisto` by name, and `readValue`. -/
  | readByName (c : Counter)
  | readAllValue (cs : List Counter)
  | cacheContains (i : Nat) | cacheInsert (i : Nat) | cacheEvict (i : Nat) | cacheGet (i : Nat)
  | cachePutIfAbsent (i : Nat) | cacheClear (n : Nat)
  /-- `total`, `hits` or `evicts` of a cache of `n` buckets. -/
  | cacheCounts (n : Nat)
  | poolAdd | poolClear | poolEmpty
  | latchDown | latchDownWait | latchWait | latchIsReady
  | barrierWait
  | addTask | addDelayTask | addRepeatTask | purgeTimerTask | workerStart | workerStop | workerWait
  /-- what the thread of the worker does. -/
  | workerNotified | workerTimer
  | succeeded | maxLatency | setLatency | markFailure | completeness | emplaceFailedPart | appendFailedParts
  | addResponse | failedParts | responses | hostLatency
  deriving DecidableEq

/-- What each of them does.  ObjectPool.h:29-51; Latch.cpp:20-48; Barrier.cpp:23-38; GenericWorker.cpp:33-86,
167-173; GenericWorker.h:177-290; StorageClientBase.h:39-102. -/
def body : Fn → OCode
  | .registerStats => Objects.registerStats
  | .registerHisto => Objects.registerHisto
  | .addValue c => useCounter c
  | .readById c => useCounter c
  | .readByName c => useByName c
  | .readAllValue cs => Objects.readAllValue cs
  | .cacheContains i => Objects.cacheContains i
  | .cacheInsert i => cacheChange i
  | .cacheEvict i => cacheChange i
  | .cacheGet i => Objects.cacheGet i
  | .cachePutIfAbsent i => Objects.cacheGet i
  | .cacheClear n => Objects.cacheClear n
  | .cacheCounts n => Objects.cacheCounts n
  | .poolAdd => locking .pool (wr .objects)
  | .poolClear => locking .pool (wr .objects)
  | .poolEmpty => rd .objects
  | .latchDown => locking .latch (all [rd .latchCount, opt (wr .latchCount)])
  | .latchDownWait =>
    .seq (locking .latch (all [rd .latchCount, opt (wr .latchCount)])) (.star (locking .latch (rd .latchCount)))
  | .latchWait => .seq (locking .latch (rd .latchCount)) (.star (locking .latch (rd .latchCount)))
  | .latchIsReady => rd .latchCount
  | .barrierWait => .seq (locking .barrier (all [rd .barrierCount, wr .barrierCount])) (.star (locking .barrier (rd .barrierCount)))
  | .addTask => .seq (locking .worker (wr .tasks)) notify
  | .addDelayTask => .seq (locking .worker (all [rd .timers, wr .timers])) notify
  | .addRepeatTask => .seq (locking .worker (all [rd .timers, wr .timers])) notify
  | .purgeTimerTask => .seq (locking .worker (wr .purges)) notify
  | .workerStart => opt (all [wr .events, opt (wr .thread)])
  | .workerStop => opt notify
  | .workerWait => .seq (rd .thread) (opt (wr .thread))
  | .workerNotified => onNotify
  | .workerTimer => onTimer
  | .succeeded => locking .answer (rd .result)
  | .maxLatency => locking .answer (rd .maxLatency)
  | .setLatency => locking .answer (all [rd .maxLatency, opt (wr .maxLatency), wr .hostLatency])
  | .markFailure => locking .answer (wr .result)
  | .completeness => locking .answer (rd .result)
  | .emplaceFailedPart => locking .answer (wr .failedParts)
  | .appendFailedParts => locking .answer (wr .failedParts)
  | .addResponse => locking .answer (wr .responses)
  | .failedParts => rd .failedParts
  | .responses => rd .responses
  | .hostLatency => rd .hostLatency

/-- Only the thread of the worker runs these. -/
def own : Fn → Bool
  | .workerNotified | .workerTimer => true
  | _ => false

def objects : System Lock Var Fn := ⟨body, own⟩

end Nebula.Locks.Objects
