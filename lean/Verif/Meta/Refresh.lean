import Verif.Exec
/-!
# When the cache of the meta client is refreshed (src/common/clients/meta/MetaClient.cpp:62-79, 118-141, 2467-2523)

One client, one server.  The server's data are a function from keys (one for each request a refresh makes) to values; they may change between
any two requests.  `cache` is the last complete refresh, as replaced at once by `loadData` (C80).
-/
namespace Nebula
namespace Meta

/-- What the background thread is doing. -/
inductive RPhase (K V : Type) where
  /-- waiting for the next heartbeat -/
  | idle
  /-- after the heartbeat; the answers received so far -/
  | busy (got : K → Option V)

structure RState (K V : Type) where
  /-- the server: the time of the last change, and the data -/
  time : Int
  data : K → V
  /-- MetaClient.h:737-738 -/
  localTime : Int
  metadTime : Int
  cache : Option (K → V)
  phase : RPhase K V

inductive REvent (K V : Type) where
  | change (time : Int) (data : K → V)
  | heartbeat
  | noHeartbeat
  | read (k : K)
  | skip
  | loaded
  | halfLoaded
  | failed

variable {K V : Type} [DecidableEq K]

/-- The steps of server and client.  `later` says what times the server gives to changes. -/
inductive RStep (later : Int → Int → Prop) : RState K V → REvent K V → RState K V → Prop
  /-- the server's data change -/
  | change {s : RState K V} {t d} : later s.time t → RStep later s (.change t d) { s with time := t, data := d }
  /-- MetaClient.cpp:124, 2517: a heartbeat is answered with the time of the last change -/
  | heartbeat {s : RState K V} : s.phase = .idle → RStep later s .heartbeat { s with metadTime := s.time, phase := .busy fun _ => none }
  /-- MetaClient.cpp:63-70 (`isMetadReady`): the heartbeat ended with "leader changed", the data are loaded nevertheless -/
  | noHeartbeat {s : RState K V} : s.phase = .idle → RStep later s .noHeartbeat { s with phase := .busy fun _ => none }
  /-- one request of the refresh -/
  | read {s : RState K V} {got k} : s.phase = .busy got →
      RStep later s (.read k) { s with phase := .busy fun j => if j = k then some (s.data k) else got j }
  /-- MetaClient.cpp:131: nothing has changed since the last refresh -/
  | skip {s : RState K V} {got} : s.phase = .busy got → ¬ s.localTime < s.metadTime → RStep later s .skip { s with phase := .idle }
  /-- MetaClient.cpp:132-139, 71-77: both loads succeed -/
  | loaded {s : RState K V} {got c} : s.phase = .busy got → (∀ k, got k = some (c k)) →
      RStep later s .loaded { s with cache := some c, localTime := s.metadTime, phase := .idle }
  /-- the data are loaded, the configuration is not; or `refreshCache` (MetaClient.cpp:3183-3186), which begins like `noHeartbeat` and never
  records a time -/
  | halfLoaded {s : RState K V} {got c} : s.phase = .busy got → (∀ k, got k = some (c k)) →
      RStep later s .halfLoaded { s with cache := some c, phase := .idle }
  /-- the heartbeat or a request fails -/
  | failed {s : RState K V} {got} : s.phase = .busy got → RStep later s .failed { s with phase := .idle }

/-- A client just made; the server's data have been changed at least once. -/
def RState.start (time : Int) (data : K → V) : RState K V := ⟨time, data, 0, 0, none, .idle⟩

end Meta
end Nebula
