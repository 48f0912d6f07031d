import Verif.Web.Router
import Verif.Exec
/-!
# Model of the life of a web service (src/common/webservice/WebService.{h,cpp})

One thread owns the service and calls `router()`, `start()`, `started()` and the destructor; the
listener is the thread that `start()` makes. Each step below is one access to what the two threads
share; the steps of the two threads interleave in any order. proxygen's server is the environment: it
either begins to listen (on two ports of its choice where the configured port is zero) and calls the
first function given to `HTTPServer::start`, or fails and calls the second; after the first it serves
until `HTTPServer::stop`. A failed `CHECK`, a null pointer that is followed and a use of a destroyed
object make the process `dead`.
-/
namespace Nebula
namespace Web

/-- The methods of the routes of `start()`. -/
def mGet : Nat := 0
def mPut : Nat := 1
/-- The handlers of the routes of `start()`: GetFlagsHandler, SetFlagsHandler, GetStatsHandler, StatusHandler. -/
def hGetFlags : Nat := 0
def hSetFlags : Nat := 1
def hStats : Nat := 2
def hStatus : Nat := 3

/-- WebService.cpp:70-89: the routes that `start()` adds after those of the owner; `none` if a `CHECK` fails. -/
def addOwn (pre : Bytes) (rs : List Route) : Option (List Route) := do
  let rs ← addRoute pre rs mGet (ascii "/flags") hGetFlags
  let rs ← addRoute pre rs mPut (ascii "/flags") hSetFlags
  let rs ← addRoute pre rs mGet (ascii "/stats") hStats
  let rs ← addRoute pre rs mGet (ascii "/status") hStatus
  addRoute pre rs mGet (ascii "/") hStatus

/-- Where the owner is: outside of the service, in a `start()` that is about to throw or to return at once, before the
test of `serverStartedDone` (the mutex is taken and the test made in one step), asleep on the condition variable, in
`join()`, or done with the destructor. -/
inductive Owner where
  | free | throwing | returning | testing | asleep | joining | gone
deriving DecidableEq, Repr

/-- Where the listener is: not made yet, before the call of one of the two functions, in the first (`true`) or second
function before the mutex, after the mutex and before `notify_all`, serving, at its end. -/
inductive Listener where
  | none | starting | calling (ok : Bool) | notifying (ok : Bool) | serving | ended
deriving DecidableEq, Repr

/-- WebService.h:52-57, the locals of `start()` (WebService.cpp:112-115) and the two port flags. -/
structure SvcState where
  pre : Bytes
  routes : List Route
  started : Bool
  hasServer : Bool
  owner : Owner
  listener : Listener
  done : Bool
  status : Option Nat
  stopped : Bool
  http : Nat
  h2 : Nat
  dead : Bool
deriving DecidableEq, Repr

/-- WebService.cpp:55-57: a new service, with the two ports of the flags. -/
def fresh (pre : Bytes) (http h2 : Nat) : SvcState :=
  ⟨pre, [], false, false, .free, .none, false, none, false, http, h2, false⟩

/-- What is seen of a service. -/
inductive Ev where
  /-- the owner adds a route through `router()` -/
  | route (method : Nat) (path : Bytes) (h : Nat)
  /-- the owner calls `start()` with `ws_threads = threads`; `resolves` tells if `ws_ip` is a known host -/
  | start (threads : Int) (resolves : Bool)
  /-- `start()` returns OK (`none`) or an error -/
  | ret (r : Option Nat)
  /-- `start()` throws -/
  | threw
  /-- the server listens on the two ports -/
  | listening (http h2 : Nat)
  /-- the server cannot listen -/
  | failed (e : Nat)
  /-- the destructor is called -/
  | destroy
  /-- the destructor returns -/
  | destroyed
  /-- any other step -/
  | tau
deriving DecidableEq, Repr

/-- The steps. -/
inductive Step : SvcState → Ev → SvcState → Prop
  /-- WebService.h:36-39, Router.cpp:115-127: adding a route. -/
  | route {s m p h rs} : s.owner = .free → s.dead = false → s.started = false → addRoute s.pre s.routes m p h = some rs →
      Step s (.route m p h) { s with routes := rs }
  /-- Router.cpp:19-60: a route that is refused. -/
  | routeBad {s m p h} : s.owner = .free → s.dead = false → s.started = false → addRoute s.pre s.routes m p h = none →
      Step s (.route m p h) { s with dead := true }
  /-- WebService.h:37: a route after `start()`. -/
  | routeLate {s m p h} : s.owner = .free → s.dead = false → s.started = true → Step s (.route m p h) { s with dead := true }
  /-- WebService.cpp:65-68: `start()` of a started service. -/
  | again {s t r} : s.owner = .free → s.dead = false → s.started = true → Step s (.start t r) { s with owner := .returning }
  /-- WebService.cpp:67 -/
  | retAgain {s} : s.owner = .returning → s.dead = false → Step s (.ret none) { s with owner := .free }
  /-- WebService.cpp:70-91, 93-96: the routes are added, `started_` is set, and the address is not found. -/
  | startThrow {s t rs} : s.owner = .free → s.dead = false → s.started = false → addOwn s.pre s.routes = some rs →
      Step s (.start t false) { s with routes := rs, started := true, owner := .throwing }
  /-- the exception leaves `start()` -/
  | throw {s} : s.owner = .throwing → s.dead = false → Step s .threw { s with owner := .free }
  /-- WebService.cpp:98-99: no threads. -/
  | startNoThreads {s t rs} : s.owner = .free → s.dead = false → s.started = false → addOwn s.pre s.routes = some rs → t ≤ 0 →
      Step s (.start t true) { s with routes := rs, started := true, dead := true }
  /-- WebService.cpp:70-118: up to the listener. -/
  | startGo {s t rs} : s.owner = .free → s.dead = false → s.started = false → addOwn s.pre s.routes = some rs → 0 < t →
      Step s (.start t true) { s with routes := rs, started := true, hasServer := true, owner := .testing, listener := .starting, done := false, status := none }
  /-- WebService.cpp:70-89: the prefix makes a route of `start()` be refused. -/
  | startBadRoutes {s t r} : s.owner = .free → s.dead = false → s.started = false → addOwn s.pre s.routes = none →
      Step s (.start t r) { s with dead := true }
  /-- WebService.cpp:121-133: the server listens; the ports that were zero are written to the flags. -/
  | listening {s a b} : s.listener = .starting → s.dead = false → a ≠ 0 → b ≠ 0 → (s.http ≠ 0 → a = s.http) → (s.h2 ≠ 0 → b = s.h2) →
      Step s (.listening a b) { s with listener := .calling true, http := if s.http = 0 then a else s.http, h2 := if s.h2 = 0 then b else s.h2 }
  /-- WebService.cpp:140-146: the server cannot listen. -/
  | failed {s e} : s.listener = .starting → s.dead = false → Step s (.failed e) { s with listener := .calling false, status := some e }
  /-- WebService.cpp:134-137, 147-150: `serverStartedDone` is set under the mutex. -/
  | publish {s ok} : s.listener = .calling ok → s.dead = false → Step s .tau { s with listener := .notifying ok, done := true }
  /-- WebService.cpp:138, 151: `notify_all` while `start()` has not returned: a sleeping owner wakes up. -/
  | notify {s ok} : s.listener = .notifying ok → s.dead = false → s.owner = .testing ∨ s.owner = .asleep →
      Step s .tau { s with listener := if ok then .serving else .ended, owner := .testing }
  /-- WebService.cpp:138, 151: `notify_all` on the condition variable of a `start()` that has returned. -/
  | notifyLate {s ok} : s.listener = .notifying ok → s.dead = false → s.owner ≠ .testing → s.owner ≠ .asleep →
      Step s .tau { s with dead := true }
  /-- WebService.cpp:156-159: the test fails and the owner sleeps. -/
  | sleep {s} : s.owner = .testing → s.dead = false → s.done = false → Step s .tau { s with owner := .asleep }
  /-- WebService.cpp:157: a wake-up without a reason. -/
  | spurious {s} : s.owner = .asleep → s.dead = false → Step s .tau { s with owner := .testing }
  /-- WebService.cpp:157-166: `start()` returns. -/
  | ret {s} : s.owner = .testing → s.dead = false → s.done = true → Step s (.ret s.status) { s with owner := .free }
  /-- WebService.cpp:60: the destructor of a service without a server. -/
  | destroyNull {s} : s.owner = .free → s.dead = false → s.hasServer = false → Step s .destroy { s with dead := true }
  /-- WebService.cpp:60: the server is told to stop. -/
  | destroy {s} : s.owner = .free → s.dead = false → s.hasServer = true → Step s .destroy { s with owner := .joining, stopped := true }
  /-- the listener leaves `HTTPServer::start` -/
  | stop {s} : s.listener = .serving → s.dead = false → s.stopped = true → Step s .tau { s with listener := .ended }
  /-- WebService.cpp:61: the listener is joined. -/
  | join {s} : s.owner = .joining → s.dead = false → s.listener = .ended → Step s .destroyed { s with owner := .gone }

end Web
end Nebula
